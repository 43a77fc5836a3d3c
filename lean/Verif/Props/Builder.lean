import Verif.Spec.Create
import Verif.Proofs.Create
import Verif.Props.Writer

/-!
# Properties C47, C48, C50: creating records

Specification: `Verif/Spec/Written.lean`; the calendar: `Verif/Spec/Calendar.lean`.
-/

set_option linter.unusedSectionVars false

namespace Warcio.Props

open Warcio Writer Builder

section
variable [PyUni]

theorem builder_names :
    PyUni.lower (lit "WARC-Type") ≠ PyUni.lower (lit "WARC-Record-ID") ∧ PyUni.lower (lit "WARC-Type") ≠ PyUni.lower (lit "WARC-Target-URI") ∧
    PyUni.lower (lit "WARC-Type") ≠ PyUni.lower (lit "WARC-Date") ∧ PyUni.lower (lit "WARC-Record-ID") ≠ PyUni.lower (lit "WARC-Target-URI") ∧
    PyUni.lower (lit "WARC-Record-ID") ≠ PyUni.lower (lit "WARC-Date") ∧ PyUni.lower (lit "WARC-Target-URI") ≠ PyUni.lower (lit "WARC-Date") :=
  ⟨differ (by decide) (by decide) (by decide), differ (by decide) (by decide) (by decide), differ (by decide) (by decide) (by decide),
    differ (by decide) (by decide) (by decide), differ (by decide) (by decide) (by decide), differ (by decide) (by decide) (by decide)⟩

theorem values_if (n v : Str) (hs : List Header) : (if named n hs = [] then [(n, v)] else named n hs).map (·.2) = if values n hs = [] then [v] else values n hs := by
  unfold values
  by_cases h : named n hs = []
  · simp [h]
  · rw [if_neg h, if_neg (by simpa using h)]

theorem dateText {env : Env} (version : Str) (hd : IsDate env.now) (hn : env.now.aware = false) : DateText version env.now (currDate version env.now) := by
  obtain ⟨h1, h2⟩ := C53_roundtrip_partial env.now hd hn
  refine ⟨?_, ?_⟩
  · rintro rfl
    rw [show currDate (lit "WARC/1.0") env.now = datetimeToIsoDate env.now from rfl]
    exact h2
  · rintro rfl
    rw [show currDate (lit "WARC/1.1") env.now = datetimeToIsoDate env.now true from rfl]
    exact h1

theorem initList_new (version : Str) {env : Env} (hd : IsDate env.now) (hn : env.now.aware = false) (uri recType : Str) {dict : List Header}
    (h1 : AtMostOne (lit "WARC-Type") dict) (h2 : uri ≠ [] → AtMostOne (lit "WARC-Target-URI") dict)
    (h3 : firstValue (lit "WARC-Record-ID") dict ≠ some []) (h4 : firstValue (lit "WARC-Date") dict ≠ some [])
    {x : List Header} (hx : ∀ h ∈ x, h.1 = lit "WARC-Payload-Digest") :
    NewHeaders version env uri recType dict (initList version env uri recType dict ++ x) := by
  obtain ⟨n1, n2, n3, n4, n5, n6⟩ := builder_names
  have hx' : ∀ n, PyUni.lower (lit "WARC-Payload-Digest") ≠ PyUni.lower n → named n x = [] := by
    intro n hn
    rw [named_eq, List.filter_eq_nil_iff]
    intro a ha
    rw [StatusAndHeaders.nameEq_other hn (show StatusAndHeaders.nameEq (lit "WARC-Payload-Digest") a = true by simp [StatusAndHeaders.nameEq, hx a ha])]
    simp
  have happ : ∀ n, PyUni.lower (lit "WARC-Payload-Digest") ≠ PyUni.lower n → named n (initList version env uri recType dict ++ x) = named n (initList version env uri recType dict) := by
    intro n hn
    rw [named_append, hx' n hn, List.append_nil]
  have fv : ∀ {n m v : Str} {hs : List Header}, PyUni.lower n ≠ PyUni.lower m → firstValue m (StatusAndHeaders.replaceIn hs n v).2 = firstValue m hs := by
    intro n m v hs h
    rw [Loader.firstValue_eq, Loader.firstValue_eq, findHeader_filter, findHeader_filter, filter_replace_passes (passes_other h)]
  have fe : ∀ {n m v : Str} {hs : List Header}, PyUni.lower n ≠ PyUni.lower m → firstValue m (ensured n v hs) = firstValue m hs := by
    intro n m v hs h
    rw [Loader.firstValue_eq, Loader.firstValue_eq, findHeader_filter, findHeader_filter, ← named_eq, ← named_eq, ensured_other h]
  refine ⟨?_, ?_, ?_, ⟨_, dateText version hd hn, ?_⟩, ?_⟩
  · rw [values, happ _ (differ (by decide) (by decide) (by decide)), initList, ensured_other n3.symm]
    have : named (lit "WARC-Type") (ensured (lit "WARC-Record-ID") env.newId (StatusAndHeaders.replaceIn dict (lit "WARC-Type") recType).2) =
      named (lit "WARC-Type") (StatusAndHeaders.replaceIn dict (lit "WARC-Type") recType).2 := ensured_other n1.symm _ _
    have hv := values_replace_self h1 recType
    rw [values] at hv
    split
    · rw [this]; exact hv
    · rw [named_replace_other n2.symm, this]; exact hv
  · rw [values, happ _ (differ (by decide) (by decide) (by decide)), initList, ensured_other n6.symm]
    cases uri with
    | nil =>
      simp only [List.isEmpty_nil, if_true]
      rw [ensured_other n4, named_replace_other n2]
      rfl
    | cons u us =>
      simp only [List.isEmpty_cons, Bool.false_eq_true, if_false, reduceCtorEq]
      refine values_replace_self ?_ _
      show (named _ _).length ≤ 1
      rw [ensured_other n4, named_replace_other n2]
      exact h2 (by simp)
  · rw [values, happ _ (differ (by decide) (by decide) (by decide)), initList, ensured_other n5.symm]
    have hs : named (lit "WARC-Record-ID") (if uri.isEmpty then ensured (lit "WARC-Record-ID") env.newId (StatusAndHeaders.replaceIn dict (lit "WARC-Type") recType).2 else
        (StatusAndHeaders.replaceIn (ensured (lit "WARC-Record-ID") env.newId (StatusAndHeaders.replaceIn dict (lit "WARC-Type") recType).2) (lit "WARC-Target-URI") uri).2) =
        named (lit "WARC-Record-ID") (ensured (lit "WARC-Record-ID") env.newId (StatusAndHeaders.replaceIn dict (lit "WARC-Type") recType).2) := by
      split
      · rfl
      · exact named_replace_other n4.symm _ _
    rw [hs, ensured_self _ (by rw [fv n1]; exact h3), named_replace_other n1]
    exact values_if _ _ _
  · rw [values, happ _ (differ (by decide) (by decide) (by decide)), initList]
    have hs : ∀ v, named (lit "WARC-Date") (if uri.isEmpty then ensured (lit "WARC-Record-ID") env.newId (StatusAndHeaders.replaceIn dict (lit "WARC-Type") recType).2 else
        (StatusAndHeaders.replaceIn (ensured (lit "WARC-Record-ID") env.newId (StatusAndHeaders.replaceIn dict (lit "WARC-Type") recType).2) (lit "WARC-Target-URI") v).2) =
        named (lit "WARC-Date") dict := by
      intro v
      split
      · rw [ensured_other n5, named_replace_other n3]
      · rw [named_replace_other n6, ensured_other n5, named_replace_other n3]
    have hf : firstValue (lit "WARC-Date") (if uri.isEmpty then ensured (lit "WARC-Record-ID") env.newId (StatusAndHeaders.replaceIn dict (lit "WARC-Type") recType).2 else
        (StatusAndHeaders.replaceIn (ensured (lit "WARC-Record-ID") env.newId (StatusAndHeaders.replaceIn dict (lit "WARC-Type") recType).2) (lit "WARC-Target-URI") uri).2) ≠ some [] := by
      split
      · rw [fe n5, fv n3]; exact h4
      · rw [fv n6, fe n5, fv n3]; exact h4
    rw [ensured_self _ hf, hs]
    exact values_if _ _ _
  · unfold without
    have p : ∀ {n : Str}, n ∈ madeNames → _ := fun h => passes_without h
    have hx0 : x.filter (fun h => madeNames.all (fun n => PyUni.lower h.1 != PyUni.lower n)) = [] := by
      rw [List.filter_eq_nil_iff]
      intro a ha
      rw [Bool.not_eq_true]
      exact p (n := lit "WARC-Payload-Digest") (by simp [madeNames]) a (by simp [StatusAndHeaders.nameEq, hx a ha])
    rw [List.filter_append, hx0, List.append_nil, initList, ensured_filter (p (by simp [madeNames]))]
    split
    · rw [ensured_filter (p (by simp [madeNames])), filter_replace_passes (p (by simp [madeNames]))]
    · rw [filter_replace_passes (p (by simp [madeNames])), ensured_filter (p (by simp [madeNames])), filter_replace_passes (p (by simp [madeNames]))]

end
section
variable [PyUni] [Hashlib] {σ : Type} [PyFile σ]

/-! ## C48 -/

/-- C48: a record that is created has the requested type and URI, an id and a date (the caller's, if
given), and apart from the payload digest no other headers than the caller's.  For every kind of
payload stream.  Partial: the caller gives no two types or URIs (see `C48_duplicate`), and no empty
id or date (see `C48_empty_id`). -/
theorem C48_headers_partial {c : BuilderCfg} {env : Env} (hd : IsDate env.now) (hn : env.now.aware = false) {a : CreateArgs σ}
    (hh : a.headers = none) (h1 : AtMostOne (lit "WARC-Type") a.dict) (h2 : a.uri ≠ [] → AtMostOne (lit "WARC-Target-URI") a.dict)
    (h3 : firstValue (lit "WARC-Record-ID") a.dict ≠ some []) (h4 : firstValue (lit "WARC-Date") a.dict ≠ some [])
    {r : OutRecord σ} (h : createRecord c env a = .ok r) :
    r.recType = some a.recType ∧ r.recHeaders.protocol = c.version ∧ r.recHeaders.statusline = [] ∧
    NewHeaders c.version env a.uri a.recType a.dict r.recHeaders.headers := by
  obtain ⟨k1, x, k2, k3, -⟩ := createRecord_headers h
  rw [hh] at k2
  simp only [Loader.truthyHeaders, Bool.false_eq_true, if_false] at k2
  rw [k2, initHeaders_eq]
  refine ⟨k1, rfl, rfl, initList_new c.version hd hn a.uri a.recType h1 h2 h3 h4 ?_⟩
  rcases k3 with rfl | ⟨v, rfl⟩
  · simp
  · simp

/-- C48: if the caller gives the headers themselves, the record has these, and a payload digest. -/
theorem C48_given {c : BuilderCfg} {env : Env} {a : CreateArgs σ} {h0 : StatusAndHeaders} (hh : a.headers = some h0) (ht : h0.headers ≠ [])
    {r : OutRecord σ} (h : createRecord c env a = .ok r) :
    r.recType = some a.recType ∧ r.recHeaders.protocol = h0.protocol ∧ r.recHeaders.statusline = h0.statusline ∧
    (r.recHeaders.headers = h0.headers ∨ ∃ v, r.recHeaders.headers = h0.headers ++ [(lit "WARC-Payload-Digest", v)]) := by
  obtain ⟨k1, x, k2, k3, -⟩ := createRecord_headers h
  have : Loader.truthyHeaders a.headers = true := by rw [hh]; simp [Loader.truthyHeaders, StatusAndHeaders.truthy, ht]
  rw [this, hh] at k2
  simp only [if_true, Option.getD_some] at k2
  rw [k2]
  refine ⟨k1, rfl, rfl, ?_⟩
  rcases k3 with rfl | ⟨v, rfl⟩
  · exact .inl (List.append_nil _)
  · exact .inr ⟨v, rfl⟩

/-- C48: the content type is the caller's, or that of the caller's headers, or that of the record
type. -/
theorem C48_content_type {c : BuilderCfg} {env : Env} {a : CreateArgs σ} (hh : a.headers = none) {r : OutRecord σ} (h : createRecord c env a = .ok r) :
    (a.contentType ≠ [] → r.contentType = some a.contentType) ∧
    (a.contentType = [] → ∀ v, v ≠ [] → firstValue (lit "Content-Type") a.dict = some v → r.contentType = some v) ∧
    (a.contentType = [] → firstValue (lit "Content-Type") a.dict = none →
      (a.recType = lit "response" ∨ a.recType = lit "revisit" → r.contentType = some (lit "application/http; msgtype=response")) ∧
      (a.recType = lit "request" → r.contentType = some (lit "application/http; msgtype=request")) ∧
      (a.recType = lit "warcinfo" ∨ a.recType = lit "metadata" → r.contentType = some (lit "application/warc-fields")) ∧
      (a.recType ∉ [lit "response", lit "revisit", lit "request", lit "warcinfo", lit "metadata"] → r.contentType = some (lit "application/warc-record"))) := by
  obtain ⟨-, x, -, -, k4⟩ := createRecord_headers h
  rw [hh] at k4
  simp only [Loader.truthyHeaders, Bool.false_eq_true, if_false] at k4
  have hct : (initHeaders c.version env a.uri a.recType a.dict).getHeader (lit "Content-Type") = firstValue (lit "Content-Type") a.dict := by
    have d1 : PyUni.lower (lit "WARC-Type") ≠ PyUni.lower (lit "Content-Type") := differ (by decide) (by decide) (by decide)
    have d2 : PyUni.lower (lit "WARC-Record-ID") ≠ PyUni.lower (lit "Content-Type") := differ (by decide) (by decide) (by decide)
    have d3 : PyUni.lower (lit "WARC-Target-URI") ≠ PyUni.lower (lit "Content-Type") := differ (by decide) (by decide) (by decide)
    have d4 : PyUni.lower (lit "WARC-Date") ≠ PyUni.lower (lit "Content-Type") := differ (by decide) (by decide) (by decide)
    rw [initHeaders_eq, Loader.firstValue_eq, findHeader_filter (lit "Content-Type") a.dict]
    show StatusAndHeaders.findHeader _ (initList _ _ _ _ _) = _
    rw [findHeader_filter, ← named_eq, initList, ensured_other d4]
    split
    · rw [ensured_other d2, named_replace_other d1]; rfl
    · rw [named_replace_other d3, ensured_other d2, named_replace_other d1]; rfl
  unfold contentTypeOf at k4
  rw [hct] at k4
  refine ⟨?_, ?_, ?_⟩
  · intro hne
    rw [k4, if_pos (by simpa using hne)]
  · intro he v hv hf
    rw [k4, he, hf]
    simp [Loader.truthy, hv]
  · intro he hf
    rw [he, hf] at k4
    simp only [List.isEmpty_nil, Bool.not_true, Bool.false_eq_true, if_false, Loader.truthy] at k4
    refine ⟨?_, ?_, ?_, ?_⟩
    · rintro (e | e) <;> rw [k4, e] <;> decide
    · intro e; rw [k4, e]; decide
    · rintro (e | e) <;> rw [k4, e] <;> decide
    · intro e
      have : warcRecords.find? (fun x => x.1 == a.recType) = none := by
        rw [List.find?_eq_none]
        intro y hy
        simp only [warcRecords, List.mem_cons, List.not_mem_nil, or_false] at hy e
        rw [not_or, not_or, not_or, not_or] at e
        obtain ⟨e1, e2, e3, e4, e5⟩ := e
        rcases hy with rfl | rfl | rfl | rfl | rfl
        · simpa using Ne.symm e4
        · simpa using Ne.symm e1
        · simpa using Ne.symm e2
        · simpa using Ne.symm e3
        · simpa using Ne.symm e5
      rw [k4, this]
      rfl

end
section
variable [PyUni] [Hashlib] [Deflater]

/-! ## C47 -/

/-- The profile of a revisit record. -/
def profileOf (version : Str) : Str :=
  if version = lit "WARC/1.1" then lit "http://netpreserve.org/warc/1.1/revisit/identical-payload-digest"
  else lit "http://netpreserve.org/warc/1.0/revisit/identical-payload-digest"

/-- The names of the headers of a revisit record. -/
def revisitNames : List Str := [lit "WARC-Profile", lit "WARC-Refers-To-Target-URI", lit "WARC-Refers-To-Date", lit "WARC-Payload-Digest"]

/-- C47: a revisit record has the profile of the version, refers to the given URI and date, and has
the given payload digest (behind headers of the same names that the caller gave, see
`C47_duplicate`); apart from these its headers are those of `C48_headers_partial`.  It has no
payload. -/
theorem C47_headers_partial {f : Bytes → Bytes} (H : Hashlib.hash (lit "sha1") = some f) {c : BuilderCfg} {env : Env} (hd : IsDate env.now) (hn : env.now.aware = false)
    (uri digest refersUri refersDate : Str) (http : Option StatusAndHeaders) (dict : List (Str × Str)) (hdig : digest ≠ [])
    (h1 : AtMostOne (lit "WARC-Type") dict) (h2 : uri ≠ [] → AtMostOne (lit "WARC-Target-URI") dict)
    (h3 : firstValue (lit "WARC-Record-ID") dict ≠ some []) (h4 : firstValue (lit "WARC-Date") dict ≠ some []) :
    ∃ (r : OutRecord FileObj) (hs : List (Str × Str)), createRevisit c env uri digest refersUri refersDate http dict = .ok r ∧
      r.recType = some (lit "revisit") ∧ r.recHeaders.protocol = c.version ∧ r.recHeaders.statusline = [] ∧ r.httpHeaders = http ∧ Holds r.raw [] ∧
      NewHeaders c.version env uri (lit "revisit") dict hs ∧
      r.recHeaders.headers = hs ++ [(lit "WARC-Profile", profileOf c.version), (lit "WARC-Refers-To-Target-URI", refersUri), (lit "WARC-Refers-To-Date", refersDate),
        (lit "WARC-Payload-Digest", digest)] ∧ named (lit "WARC-Payload-Digest") hs = named (lit "WARC-Payload-Digest") dict ∧
      r.length = some 0 ∧ r.payloadLength = some 0 := by
  obtain ⟨r, k1, k2⟩ := createRecord_created (c := c) (env := env) (d := []) H
    (a := ({ uri := uri, recType := lit "revisit", http := http, dict := dict } : CreateArgs FileObj)) (http := http) (payload := none) (length := none) rfl rfl
  have hg : givenHeaders c env ({ uri := uri, recType := lit "revisit", http := http, dict := dict } : CreateArgs FileObj) =
      ⟨[], initList c.version env uri (lit "revisit") dict, c.version, 0, none⟩ := initHeaders_eq _ _ _ _ _
  have hno : noPayloadDigest (some (lit "revisit")) = true := by decide
  have hh := k2.headers
  rw [hg] at hh
  simp only [hno, Bool.or_true, Bool.not_true, newDigests, Bool.false_eq_true, if_false, List.append_nil] at hh
  have hnew := initList_new c.version hd hn uri (lit "revisit") h1 h2 h3 h4 (x := []) (by simp)
  rw [List.append_nil] at hnew
  unfold createRevisit
  rw [if_neg (by simpa using hdig), k1]
  have hs : Holds r.raw [] := by
    have := k2.stream
    cases hr : r.raw with
    | own f => rw [hr] at this; exact this
    | mem f => rw [hr] at this; exact this
    | closed => rw [hr] at this; exact this
  refine ⟨_, initList c.version env uri (lit "revisit") dict, rfl, k2.recType, ?_, ?_, k2.http, hs, hnew, ?_, ?_, k2.length, ?_⟩
  · show r.recHeaders.protocol = _
    rw [hh]
  · show r.recHeaders.statusline = _
    rw [hh]
  · show ((((r.recHeaders.headers ++ _) ++ _) ++ _) ++ _) = _
    rw [hh]
    simp only [List.append_assoc, List.cons_append, List.nil_append]
    rfl
  · unfold initList
    rw [ensured_other (differ (by decide) (by decide) (by decide))]
    split
    · rw [ensured_other (differ (by decide) (by decide) (by decide)), named_replace_other (differ (by decide) (by decide) (by decide))]
    · rw [named_replace_other (differ (by decide) (by decide) (by decide)), ensured_other (differ (by decide) (by decide) (by decide)),
        named_replace_other (differ (by decide) (by decide) (by decide))]
  · rcases k2.payloadLength with h | h
    · exact h
    · exact h

omit [Deflater] in
/-- C47: without a digest there is no revisit record. -/
theorem C47_no_digest (c : BuilderCfg) (env : Env) (uri refersUri refersDate : Str) (http : Option StatusAndHeaders) (dict : List (Str × Str)) :
    (createRevisit c env uri [] refersUri refersDate http dict : Except PyErr (OutRecord FileObj)) = .error .assertionError := rfl

omit [Deflater] in
/-- A record without payload can be written. -/
theorem empty_writable {flt : Str × Str → Option (Str × Str)} {r : OutRecord FileObj} {hb : Bytes} (hs : Holds r.raw []) (hh : HttpPart flt r hb)
    (hl : r.length = some 0) (hp : r.payloadLength = some 0) (hv : r.recHeaders.protocol ≠ []) : Writable flt r hb [] := by
  refine ⟨hs, hh, ?_, hv⟩
  by_cases he : hb = []
  · subst he
    refine .block (fun h => absurd rfl h) ?_
    rw [hl]
    unfold blockOf
    split <;> rfl
  · exact .payload 0 he hp (by omega) (fun _ => rfl)

/-- C47: what is written for a revisit record is its header block and the HTTP headers, nothing
else; `Content-Length` and the block digest are those of the HTTP headers. -/
theorem C47_written {f : Bytes → Bytes} (H : Hashlib.hash (lit "sha1") = some f) {c : BuilderCfg} (hg : c.gzip = false) (hv : c.version ≠ []) {env : Env}
    (uri digest refersUri refersDate : Str) (http : Option StatusAndHeaders) (dict : List (Str × Str)) (hdig : digest ≠ [])
    {r : OutRecord FileObj} (hr : createRevisit c env uri digest refersUri refersDate http dict = .ok r) {hb : Bytes} (hh : HttpPart c.filter r hb)
    {o : OutFile} (ho : o.AtEnd) :
    ∃ hs r', write c r o = (.ok (), r', o.extended (recordBytes c.version [] hs hb)) ∧ HeadersFor r hb hs ∧
      (firstValue (lit "WARC-Block-Digest") dict = none → named (lit "WARC-Block-Digest") hs = [(lit "WARC-Block-Digest", sha1Text f hb)]) ∧
      named (lit "WARC-Payload-Digest") hs = named (lit "WARC-Payload-Digest") dict ++ [(lit "WARC-Payload-Digest", digest)] := by
  obtain ⟨r0, k1, k2⟩ := createRecord_created (c := c) (env := env) (d := []) H
    (a := ({ uri := uri, recType := lit "revisit", http := http, dict := dict } : CreateArgs FileObj)) (http := http) (payload := none) (length := none) rfl rfl
  have hgv : givenHeaders c env ({ uri := uri, recType := lit "revisit", http := http, dict := dict } : CreateArgs FileObj) =
      ⟨[], initList c.version env uri (lit "revisit") dict, c.version, 0, none⟩ := initHeaders_eq _ _ _ _ _
  have hno : noPayloadDigest (some (lit "revisit")) = true := by decide
  have hh0 := k2.headers
  rw [hgv] at hh0
  simp only [hno, Bool.or_true, Bool.not_true, newDigests, Bool.false_eq_true, if_false, List.append_nil] at hh0
  unfold createRevisit at hr
  rw [if_neg (by simpa using hdig), k1] at hr
  simp only [Except.ok.injEq] at hr
  have e1 : r.recType = some (lit "revisit") := by rw [← hr]; exact k2.recType
  have e2 : r.recHeaders.protocol = c.version := by rw [← hr]; show r0.recHeaders.protocol = _; rw [hh0]
  have e3 : r.recHeaders.statusline = [] := by rw [← hr]; show r0.recHeaders.statusline = _; rw [hh0]
  have e4 : r.length = some 0 := by rw [← hr]; exact k2.length
  have e5 : r.payloadLength = some 0 := by rw [← hr]; rcases k2.payloadLength with h | h <;> exact h
  have e6 : r.raw = r0.raw := by rw [← hr]
  have e7 : r.recHeaders.headers = initList c.version env uri (lit "revisit") dict ++
      [(lit "WARC-Profile", profileOf c.version), (lit "WARC-Refers-To-Target-URI", refersUri), (lit "WARC-Refers-To-Date", refersDate), (lit "WARC-Payload-Digest", digest)] := by
    rw [← hr]
    show ((((r0.recHeaders.headers ++ _) ++ _) ++ _) ++ _) = _
    rw [hh0]
    simp only [List.append_assoc, List.cons_append, List.nil_append]
    rfl
  have hs : Holds r.raw [] := by
    rw [e6]
    have := k2.stream
    cases hr : r0.raw with
    | own f => rw [hr] at this; exact this
    | mem f => rw [hr] at this; exact this
    | closed => rw [hr] at this; exact this
  have hbl : blockOf r hb [] = hb := by unfold blockOf; rw [if_pos e1, List.append_nil]
  obtain ⟨r', w1, w2, -⟩ := write_plain H hg (empty_writable hs hh e4 e5 (by rw [e2]; exact hv)) ho
  have hB := (written_digests f r hb [] (.inl rfl)).trans (block_digests f r hb [])
  have hP := (written_digests f r hb [] (.inr rfl)).trans (payload_digests f r hb [])
  rw [base_known (by rw [e4]; simp)] at hB hP
  have hinit : ∀ n, (PyUni.lower (lit "WARC-Type") ≠ PyUni.lower n ∧ PyUni.lower (lit "WARC-Record-ID") ≠ PyUni.lower n ∧ PyUni.lower (lit "WARC-Target-URI") ≠ PyUni.lower n ∧
      PyUni.lower (lit "WARC-Date") ≠ PyUni.lower n) → named n (initList c.version env uri (lit "revisit") dict) = named n dict := by
    rintro n ⟨a1, a2, a3, a4⟩
    unfold initList
    rw [ensured_other a4]
    split
    · rw [ensured_other a2, named_replace_other a1]
    · rw [named_replace_other a3, ensured_other a2, named_replace_other a1]
  refine ⟨writtenHeaders f r hb [], r', by rw [w1, e2, e3, hbl], ?_, ?_, ?_⟩
  · have := headersFor f r hb []
    rw [hbl] at this
    exact this
  · intro hf
    rw [Loader.firstValue_eq] at hf
    have : r.recHeaders.headers.filter (StatusAndHeaders.nameEq (lit "WARC-Block-Digest")) = [] := by
      rw [e7, ← named_eq, named_append, hinit _ ⟨differ (by decide) (by decide) (by decide), differ (by decide) (by decide) (by decide), differ (by decide) (by decide) (by decide), differ (by decide) (by decide) (by decide)⟩,
        named_eq, filter_nil_iff.2 hf]
      show named _ ([(lit "WARC-Profile", profileOf c.version)] ++ ([(lit "WARC-Refers-To-Target-URI", refersUri)] ++ ([(lit "WARC-Refers-To-Date", refersDate)] ++ [(lit "WARC-Payload-Digest", digest)]))) = []
      rw [named_append, named_append, named_append, named_other (differ (by decide) (by decide) (by decide)), named_other (differ (by decide) (by decide) (by decide)),
        named_other (differ (by decide) (by decide) (by decide)), named_other (differ (by decide) (by decide) (by decide))]
      rfl
    rw [this, filter_nil_iff.1 this, List.append_nil] at hB
    exact hB
  · rw [e1, hno, Bool.or_true, if_pos rfl, List.append_nil, e7, ← named_eq, ← named_eq, named_append,
      hinit _ ⟨differ (by decide) (by decide) (by decide), differ (by decide) (by decide) (by decide), differ (by decide) (by decide) (by decide), differ (by decide) (by decide) (by decide)⟩] at hP
    rw [hP]
    congr 1
    show named _ ([(lit "WARC-Profile", profileOf c.version)] ++ ([(lit "WARC-Refers-To-Target-URI", refersUri)] ++ ([(lit "WARC-Refers-To-Date", refersDate)] ++ [(lit "WARC-Payload-Digest", digest)]))) = _
    rw [named_append, named_append, named_append, named_other (differ (by decide) (by decide) (by decide)), named_other (differ (by decide) (by decide) (by decide)),
      named_other (differ (by decide) (by decide) (by decide)), named_self]
    rfl

/-! ## C50 -/

/-- The lines of a warcinfo record: one for each entry that is not empty, in order. -/
def infoText (info : List (Str × Str)) : Str := (info.filter (fun e => e.2 ≠ [])).flatMap (fun e => e.1 ++ lit ": " ++ e.2 ++ lit "\r\n")

omit [PyUni] [Hashlib] [Deflater] in
theorem infoLines_eq (info : List (Str × Str)) : infoLines info = utf8Encode (infoText info) := by
  induction info with
  | nil => rfl
  | cons e t ih =>
    obtain ⟨n, v⟩ := e
    unfold infoLines
    cases v with
    | nil => rw [List.isEmpty_nil, if_pos rfl, ih]; rfl
    | cons x xs =>
      rw [List.isEmpty_cons, if_neg (by simp), ih, ← utf8Encode_append]
      rfl

omit [Hashlib] [Deflater] in
/-- Records of other types have no HTTP headers. -/
theorem httpOf_other {σ : Type} [PyFile σ] (uri : Str) {recType : Str} (ht : Loader.httpRecords.contains recType = false) (p : RecStream σ) (length : Option Int) :
    httpOf uri recType (some p) length none = .ok (none, some p, length) := by
  have : Loader.loadHttpHeaders true (some recType) (some uri) length p = (.ok none, p) := by
    unfold Loader.loadHttpHeaders
    simp only [ht, Bool.not_false, if_true]
    split <;> rfl
  unfold httpOf
  simp only [this]
  cases length <;> rfl

/-- The headers of a warcinfo record. -/
def infoHeaders (c : BuilderCfg) (env : Env) (filename : Str) : StatusAndHeaders :=
  ⟨[], [(lit "WARC-Type", lit "warcinfo"), (lit "WARC-Record-ID", env.newId)] ++
    (if filename = [] then [] else [(lit "WARC-Filename", filename)]) ++ [(lit "WARC-Date", currDate c.version env.now)], c.version, 0, none⟩

omit [Deflater] in
theorem createInfo_eq (c : BuilderCfg) (env : Env) (filename : Str) (info : List (Str × Str)) : (createInfo c env filename info : Except PyErr (OutRecord FileObj)) =
    createRecord c env { uri := [], recType := lit "warcinfo", headers := some (infoHeaders c env filename), payload := some (.mem { content := infoLines info }),
                         length := some (len (infoLines info)) } := by
  cases filename <;> rfl

/-- C50: a warcinfo record holds one line for each entry that is not empty, in order; its length is
the length of these lines.  Its headers are type, id, file name (if given) and date. -/
theorem C50_record {f : Bytes → Bytes} (H : Hashlib.hash (lit "sha1") = some f) {c : BuilderCfg} {env : Env} (hd : IsDate env.now) (hn : env.now.aware = false)
    (filename : Str) (info : List (Str × Str)) :
    ∃ (r : OutRecord FileObj) (t : Str), createInfo c env filename info = .ok r ∧ r.recType = some (lit "warcinfo") ∧ r.httpHeaders = none ∧
      Holds r.raw (utf8Encode (infoText info)) ∧ r.length = some (len (utf8Encode (infoText info))) ∧ r.contentType = some (lit "application/warc-fields") ∧
      r.recHeaders.protocol = c.version ∧ r.recHeaders.statusline = [] ∧ DateText c.version env.now t ∧
      r.recHeaders.headers = [(lit "WARC-Type", lit "warcinfo"), (lit "WARC-Record-ID", env.newId)] ++
        (if filename = [] then [] else [(lit "WARC-Filename", filename)]) ++ [(lit "WARC-Date", t)] := by
  have hno : noPayloadDigest (some (lit "warcinfo")) = true := by decide
  rw [createInfo_eq]
  generalize hh1 : infoHeaders c env filename = h0
  replace hh1 := hh1.symm
  unfold infoHeaders at hh1
  obtain ⟨r, k1, k2⟩ := createRecord_created (c := c) (env := env) (d := infoLines info) H
    (a := ({ uri := [], recType := lit "warcinfo", headers := some h0, payload := some (.mem { content := infoLines info }), length := some (len (infoLines info)) } : CreateArgs FileObj))
    (http := none) (payload := some (.mem { content := infoLines info })) (length := some (len (infoLines info)))
    (httpOf_other _ (show Loader.httpRecords.contains (lit "warcinfo") = false by decide) _ _) rfl
  have hgv : givenHeaders c env ({ uri := [], recType := lit "warcinfo", headers := some h0, payload := some (.mem { content := infoLines info }), length := some (len (infoLines info)) } : CreateArgs FileObj) = h0 := by
    unfold givenHeaders
    have : Loader.truthyHeaders (some h0) = true := by rw [hh1]; rfl
    show (if Loader.truthyHeaders (some h0) then _ else _) = _
    rw [if_pos this]
    rfl
  have hh := k2.headers
  rw [hgv] at hh
  simp only [hno, Bool.or_true, Bool.not_true, newDigests, Bool.false_eq_true, if_false, List.append_nil] at hh
  have hct : h0.getHeader (lit "Content-Type") = none := by
    show StatusAndHeaders.findHeader _ h0.headers = none
    rw [StatusAndHeaders.findHeader_none]
    intro x hx
    have hmem : x.1 ∈ [lit "WARC-Type", lit "WARC-Record-ID", lit "WARC-Filename", lit "WARC-Date"] := by
      rw [hh1] at hx
      by_cases hf : filename = []
      · simp only [hf, if_true, List.append_nil, List.cons_append, List.nil_append, List.mem_cons, List.not_mem_nil, or_false] at hx
        rcases hx with rfl | rfl | rfl <;> simp
      · simp only [hf, if_false, List.cons_append, List.nil_append, List.mem_cons, List.not_mem_nil, or_false] at hx
        rcases hx with rfl | rfl | rfl | rfl <;> simp
    obtain ⟨n, v⟩ := x
    simp only [List.mem_cons, List.not_mem_nil, or_false] at hmem
    rcases hmem with rfl | rfl | rfl | rfl <;>
      exact StatusAndHeaders.nameEq_other (differ (by decide) (by decide) (by decide)) (StatusAndHeaders.nameEq_self _ _)
  refine ⟨r, currDate c.version env.now, k1, k2.recType, k2.http, ?_, ?_, ?_, ?_, ?_, dateText c.version hd hn, ?_⟩
  · rw [← infoLines_eq]
    have := k2.stream
    cases hr : r.raw with
    | own f => rw [hr] at this; exact this
    | mem f => rw [hr] at this; exact this
    | closed => rw [hr] at this; exact this
  · rw [← infoLines_eq]; exact k2.length
  · rw [k2.contentType, hgv]
    have : contentTypeOf [] h0 (lit "warcinfo") = lit "application/warc-fields" := by
      unfold contentTypeOf
      rw [hct]
      decide
    exact congrArg some this
  · rw [hh, hh1]
  · rw [hh, hh1]
  · rw [hh, hh1]

/-- C50: it is written with these lines as its block. -/
theorem C50_written {f : Bytes → Bytes} (H : Hashlib.hash (lit "sha1") = some f) {c : BuilderCfg} (hg : c.gzip = false) (hv : c.version ≠ []) {env : Env}
    (hd : IsDate env.now) (hn : env.now.aware = false) (filename : Str) (info : List (Str × Str)) {o : OutFile} (ho : o.AtEnd) :
    ∃ (r : OutRecord FileObj) (hs : List (Str × Str)) (r' : OutRecord FileObj), createInfo c env filename info = .ok r ∧
      write c r o = (.ok (), r', o.extended (recordBytes c.version [] hs (utf8Encode (infoText info)))) ∧ HeadersFor r (utf8Encode (infoText info)) hs := by
  obtain ⟨r, t, k1, k2, k3, k4, k5, k6, k7, k8, -, -⟩ := C50_record H (c := c) hd hn filename info
  have hbl : blockOf r [] (utf8Encode (infoText info)) = utf8Encode (infoText info) := by
    unfold blockOf
    rw [k2, if_neg (by decide), List.nil_append]
  have hw : Writable c.filter r [] (utf8Encode (infoText info)) :=
    ⟨k4, .none k3, .block (fun h => absurd rfl h) (by rw [hbl]; exact k5), by rw [k7]; exact hv⟩
  obtain ⟨r', w1, w2, -⟩ := write_plain H hg hw ho
  rw [hbl, k7, k8] at w1
  have hf := headersFor f r [] (utf8Encode (infoText info))
  rw [hbl] at hf
  exact ⟨r, _, r', k1, w1, hf⟩

end

/-! ## Concrete cases -/

section
open Toy

/-- An afternoon. -/
def bEnv : Env := { now := { year := 2020, month := 2, day := 29, hour := 13, minute := 5, second := 9, micro := 123456 }, newId := lit "<urn:uuid:1>" }

/-- The arguments of a new response with a header of the caller. -/
def bArgs (dict : List (Str × Str)) : CreateArgs FileObj :=
  { uri := lit "http://a/", recType := lit "response", payload := some (.own { content := utf8Encode (lit "HTTP/1.0 200 OK\r\nA: b\r\n\r\nabc") }), dict := dict }

/-- The headers of a record that was created. -/
def bHeaders (r : Except PyErr (OutRecord FileObj)) : List (Str × Str) :=
  match r with
  | .ok r => r.recHeaders.headers
  | .error _ => []

/-- The hypotheses of C48 hold. -/
example : IsDate bEnv.now ∧ bEnv.now.aware = false ∧ AtMostOne (lit "WARC-Type") [(lit "X", lit "y")] ∧ firstValue (lit "WARC-Record-ID") [(lit "X", lit "y")] ≠ some [] :=
  ⟨by constructor <;> decide, by decide, by decide, by decide⟩

example : bHeaders (createRecord {} bEnv (bArgs [(lit "X", lit "y")])) =
    [(lit "X", lit "y"), (lit "WARC-Type", lit "response"), (lit "WARC-Record-ID", lit "<urn:uuid:1>"), (lit "WARC-Target-URI", lit "http://a/"),
      (lit "WARC-Date", lit "2020-02-29T13:05:09Z"), (lit "WARC-Payload-Digest", sha1Text sha1 [97, 98, 99])] := by
  decide +kernel

/-- C48 fails if the caller gives two types: the first value, which readers take, is not the
requested one. -/
theorem C48_duplicate :
    firstValue (lit "WARC-Type") (bHeaders (createRecord {} bEnv (bArgs [(lit "WARC-Type", lit "resource"), (lit "warc-type", lit "resource")]))) = some (lit "resource") := by
  decide +kernel

/-- C48 fails if the caller gives an empty id: the id that is made stands behind it. -/
theorem C48_empty_id : values (lit "WARC-Record-ID") (bHeaders (createRecord {} bEnv (bArgs [(lit "WARC-Record-ID", [])]))) = [[], lit "<urn:uuid:1>"] := by
  decide +kernel

/-- What C47 is about, computed. -/
example : bHeaders (createRevisit { version := lit "WARC/1.1" } bEnv (lit "http://a/") (lit "sha1:X") (lit "http://b/") (lit "2019") none []) =
    [(lit "WARC-Type", lit "revisit"), (lit "WARC-Record-ID", lit "<urn:uuid:1>"), (lit "WARC-Target-URI", lit "http://a/"), (lit "WARC-Date", lit "2020-02-29T13:05:09.123456Z"),
      (lit "WARC-Profile", lit "http://netpreserve.org/warc/1.1/revisit/identical-payload-digest"), (lit "WARC-Refers-To-Target-URI", lit "http://b/"),
      (lit "WARC-Refers-To-Date", lit "2019"), (lit "WARC-Payload-Digest", lit "sha1:X")] := by
  decide +kernel

/-- The hypotheses of C47 hold for a revisit with HTTP headers. -/
example : ∃ r : OutRecord FileObj, createRevisit { gzip := false } bEnv (lit "http://a/") (lit "sha1:X") (lit "http://b/") (lit "2019") (some wHttp) [] = .ok r ∧
    HttpPart some r (utf8Encode (lit "HTTP/1.0 200 OK\r\nA: b\r\n\r\n")) :=
  ⟨_, rfl, .some wHttp _ rfl (.inl (by decide)) (by decide +kernel)⟩

/-- C47 fails if the caller's headers contain a payload digest: the first value is theirs. -/
theorem C47_duplicate :
    firstValue (lit "WARC-Payload-Digest")
      (bHeaders (createRevisit {} bEnv (lit "http://a/") (lit "sha1:X") (lit "http://b/") (lit "2019") none [(lit "WARC-Payload-Digest", lit "sha1:Y")])) = some (lit "sha1:Y") := by
  decide +kernel

/-- What C50 is about, computed: the entry without value is left out. -/
example : infoText [(lit "software", lit "x"), (lit "format", []), (lit "b", lit "ä")] = lit "software: x\r\nb: ä\r\n" := by decide

end
end Warcio.Props
