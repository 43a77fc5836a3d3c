import Verif.Proofs.RecordLoader
import Verif.Proofs.HeaderRound

/-! # Which header block a record has, and its block -/

set_option linter.unusedSectionVars false

namespace Warcio
namespace Loader

section
variable [PyUni]

theorem firstValue_eq (n : Str) (hs : List Header) : firstValue n hs = StatusAndHeaders.findHeader n hs := by
  unfold firstValue
  induction hs with
  | nil => rfl
  | cons h t ih =>
    simp only [List.find?_cons, StatusAndHeaders.findHeader, StatusAndHeaders.nameEq]
    by_cases hh : (PyUni.lower h.1 == PyUni.lower n) = true
    · simp [hh]
    · simp only [Bool.not_eq_true] at hh
      simp only [hh, Bool.false_eq_true, if_false]
      exact ih

theorem startsWarc_iff (data : Bytes) : StartsWarc data ↔ ∃ p ∈ warcTypes, p <+: PyUni.upper (rstrip (decodeHeader (takeLine data))) := Iff.rfl

theorem upper_nil : PyUni.upper ([] : Str) = [] := by
  have := PyUni.upper_append ([] : Str) []
  have h := congrArg List.length this
  simp only [List.append_nil, List.length_append] at h
  exact List.length_eq_zero_iff.1 (by omega)

theorem startsWarc_text {data : Bytes} (h : StartsWarc data) : lineText (takeLine data) ≠ [] := by
  intro h0
  obtain ⟨v, hv, hp⟩ := h
  rw [h0, upper_nil, List.prefix_nil] at hp
  subst hp
  simp only [List.mem_cons, List.not_mem_nil, or_false] at hv
  rcases hv with h | h | h | h <;> cases h

theorem text_ne {data : Bytes} (h : lineText (takeLine data) ≠ []) : data ≠ [] := by
  rintro rfl; exact h rfl

theorem decode_ne {data : Bytes} (h : data ≠ []) : decodeHeader (takeLine data) ≠ [] :=
  fun h0 => takeLine_ne_nil h (decodeHeader_eq_nil.1 h0)

theorem headD_splitLines (data : Bytes) : (splitLines data).headD [] = takeLine data := by
  by_cases h : data = []
  · subst h; rfl
  · rw [splitLines_cons h]; rfl

theorem tail_splitLines (data : Bytes) : (splitLines data).tail = splitLines (dropLine data) := by
  by_cases h : data = []
  · subst h; rfl
  · rw [splitLines_cons h]; rfl

/-- A WARC header block. -/
theorem detect_warc {o : LoadOpts} (hk : o.knownFormat ≠ some .arc) {data : Bytes} (h : StartsWarc data) :
    ∃ h0 : StatusAndHeaders, detectLines o (decodeHeader (takeLine data)) (splitLines (dropLine data)) =
      (.ok (.warc, h0), (readBlock (splitLines (dropLine data))).2.1) ∧
      h0.headers = headersOf (readBlock (splitLines (dropLine data))).1 ∧ VersionLine data h0.protocol h0.statusline := by
  have hne := startsWarc_text h
  have hne' : ¬ rstrip (decodeHeader (takeLine data)) = [] := hne
  unfold detectLines
  rw [if_neg hk]
  unfold HeaderParser.parseLines
  rw [if_neg (decode_ne (text_ne hne)), if_neg hne']
  have hs : ∃ x : Str × Option Str, warcParser.protocolStatus (decodeHeader (takeLine data)) (rstrip (decodeHeader (takeLine data))) = .ok x ∧
      VersionLine data x.1 (strip (x.2.getD [])) := by
    unfold HeaderParser.protocolStatus
    rw [if_pos (show warcParser.verify = true from rfl)]
    cases hsp : HeaderParser.splitPrefix (rstrip (decodeHeader (takeLine data))) warcParser.statuslist with
    | none =>
      obtain ⟨v, hv, hp⟩ := h
      exact absurd hp (HeaderParser.splitPrefix_none.1 hsp v hv)
    | some x =>
      obtain ⟨p, r⟩ := x
      obtain ⟨h1, h2, h3⟩ := HeaderParser.splitPrefix_mem hsp
      exact ⟨_, rfl, h1, h2, by rw [h3]; rfl⟩
  obtain ⟨x, hx, hv⟩ := hs
  rw [hx]
  exact ⟨_, rfl, rfl, hv⟩

/-- A blank first line counts as a WARC header block without headers. -/
theorem detect_blank {o : LoadOpts} (hk : o.knownFormat ≠ some .arc) {data : Bytes} (hd : data ≠ []) (h : lineText (takeLine data) = []) :
    ∃ h0 : StatusAndHeaders, detectLines o (decodeHeader (takeLine data)) (splitLines (dropLine data)) =
      (.ok (.warc, h0), splitLines (dropLine data)) ∧ h0.headers = [] := by
  have h' : rstrip (decodeHeader (takeLine data)) = [] := h
  unfold detectLines
  rw [if_neg hk]
  unfold HeaderParser.parseLines
  rw [if_neg (decode_ne hd), if_pos h']
  exact ⟨_, rfl, rfl⟩

theorem detect_not_warc {o : LoadOpts} {data : Bytes} (h : lineText (takeLine data) ≠ []) (hw : ¬ StartsWarc data) (ls : List Bytes) :
    warcParser.parseLines (decodeHeader (takeLine data)) ls = (.error (.statusParser (decodeHeader (takeLine data))), ls) := by
  have h' : ¬ rstrip (decodeHeader (takeLine data)) = [] := h
  unfold HeaderParser.parseLines
  rw [if_neg (decode_ne (text_ne h)), if_neg h']
  unfold HeaderParser.protocolStatus
  rw [if_pos (show warcParser.verify = true from rfl)]
  have : HeaderParser.splitPrefix (rstrip (decodeHeader (takeLine data))) warcParser.statuslist = none := by
    rw [HeaderParser.splitPrefix_none]
    intro p hp hpp
    exact hw ⟨p, hp, hpp⟩
  rw [this]

theorem detect_refused {o : LoadOpts} (hk : o.knownFormat = some .warc) {data : Bytes} (h : lineText (takeLine data) ≠ []) (hw : ¬ StartsWarc data)
    (ls : List Bytes) : detectLines o (decodeHeader (takeLine data)) ls = (.error .invalidWarc, ls) := by
  unfold detectLines
  rw [if_neg (by rw [hk]; simp), detect_not_warc (o := o) h hw]
  simp only [hk, if_true]

/-- When the first line is looked at as an ARC line. -/
def TriesArc (o : LoadOpts) (data : Bytes) : Prop :=
  o.knownFormat = some .arc ∨ (o.knownFormat = none ∧ lineText (takeLine data) ≠ [] ∧ ¬ StartsWarc data)

theorem detect_tries {o : LoadOpts} {data : Bytes} (h : TriesArc o data) (ls : List Bytes) :
    detectLines o (decodeHeader (takeLine data)) ls = detectArcLines o (decodeHeader (takeLine data)) ls := by
  unfold detectLines
  rcases h with h | ⟨h1, h2, h3⟩
  · rw [if_pos h]
  · rw [if_neg (by rw [h1]; simp), detect_not_warc (o := o) h2 h3]
    simp only [h1, reduceCtorEq, if_false]

theorem detect_arc_ok {o : LoadOpts} {data : Bytes} (h : 4 ≤ (lineText (takeLine data)).count ' ') (ls : List Bytes) :
    ∃ hs, arcHeaders o (lineText (takeLine data)) (rsplitN ' ' 4 (lineText (takeLine data))) = .ok hs ∧
      detectArcLines o (decodeHeader (takeLine data)) ls = (.ok (if o.arc2warc then .arc2warc else .arc,
        { statusline := [], headers := hs, protocol := lit "WARC/1.0", totalLen := (arcSkip (decodeHeader (takeLine data)) ls).1 }),
        (arcSkip (decodeHeader (takeLine data)) ls).2) := by
  have hne : lineText (takeLine data) ≠ [] := by intro h0; rw [h0] at h; simp at h
  obtain ⟨hs, hh⟩ := arcHeaders_ok o (lineText (takeLine data)) (rsplitN ' ' 4 (lineText (takeLine data)))
  refine ⟨hs, hh, ?_⟩
  unfold detectArcLines arcLines
  rw [if_neg (decode_ne (text_ne hne))]
  have hl : ¬ (rsplitN ' ' 4 (rstrip (decodeHeader (takeLine data)))).length ≠ 5 := by
    have := rsplitN_length ' ' 4 (lineText (takeLine data))
    unfold lineText at this h
    rw [this]; omega
  simp only
  rw [if_neg hl]
  unfold lineText at hh
  rw [hh]

theorem detect_arc_bad {o : LoadOpts} {data : Bytes} (hd : data ≠ []) (h : ¬ 4 ≤ (lineText (takeLine data)).count ' ') (ls : List Bytes) :
    ∃ ls', detectArcLines o (decodeHeader (takeLine data)) ls = (.error (if o.knownFormat = some .arc then .invalidArc else .unknownFormat), ls') := by
  unfold detectArcLines arcLines
  rw [if_neg (decode_ne hd)]
  have hl : (rsplitN ' ' 4 (rstrip (decodeHeader (takeLine data)))).length ≠ 5 := by
    have := rsplitN_length ' ' 4 (lineText (takeLine data))
    unfold lineText at this h
    rw [this]; omega
  simp only
  rw [if_pos hl]
  exact ⟨_, rfl⟩

theorem detect_eof (o : LoadOpts) (ls : List Bytes) : detectLines o (decodeHeader (takeLine [])) ls = (.error .eofError, ls) := by
  unfold detectLines
  by_cases hk : o.knownFormat = some .arc
  · rw [if_pos hk]; rfl
  · rw [if_neg hk]; rfl

/-- The five fields. -/
theorem rsplit_arcLine (uri : Str) {ip date ctype length : Str} (h : ArcFields ip date ctype length) :
    rsplitN ' ' 4 (arcLine uri ip date ctype length) = [uri, ip, date, ctype, length] := by
  unfold arcLine
  simp only [rsplitN]
  rw [rsplit1_append h.length_sp]
  simp only
  rw [rsplit1_append h.ctype_sp]
  simp only
  rw [rsplit1_append h.date_sp]
  simp only
  rw [rsplit1_append h.ip_sp]
  rfl

theorem count_arcLine (uri ip date ctype length : Str) : 4 ≤ (arcLine uri ip date ctype length).count ' ' := by
  unfold arcLine
  simp only [List.count_append, List.count_cons_self]
  omega

end

section
variable {σ : Type} [PyStream σ] {W : σ → Bytes → Prop} [PyUni] [Hashlib]

/-- Detection on a stream. -/
theorem detect_stream (hL : LineRead W) (o : LoadOpts) {s : σ} {data : Bytes} (hs : W s data) :
    ∃ s', detectType o s none = ((detectLines o (decodeHeader (takeLine data)) (splitLines (dropLine data))).1, s') ∧
      W s' (detectLines o (decodeHeader (takeLine data)) (splitLines (dropLine data))).2.flatten := by
  obtain ⟨s', h1, h2⟩ := detectType_spec hL o (s := s) ⟨data, hs, rfl⟩
  rw [headD_splitLines, tail_splitLines] at h1 h2
  exact ⟨s', h1, HeaderParser.LV.flatten h2⟩

/-- A history of `read` calls on the record stream gives the block. -/
theorem view_reads (hW : ExactRead W) : ∀ (cs : List Call) {raw : RawStream σ} {b t : Bytes}, raw.View W b t →
    (∀ c ∈ cs, c.nonneg ∧ ∃ n, c = .read n) →
    (runCalls raw cs).1 = (expectCalls b cs).1.map .ok ∧ (runCalls raw cs).2.View W (expectCalls b cs).2 t := by
  intro cs
  induction cs with
  | nil => intro raw b t h _; exact ⟨rfl, h⟩
  | cons c cs ih =>
    intro raw b t h hc
    obtain ⟨h1, n, rfl⟩ := hc c (by simp)
    obtain ⟨p, b', raw', k1, k2, k3, _, _, _, k6⟩ := h.call hW h1
    have hp := k6 n rfl
    obtain ⟨i1, i2⟩ := ih k3 (fun c hc' => hc c (by simp [hc']))
    have hb : b.drop ((Call.read n).expect b).length = b' := by rw [← hp, k2]; simp
    simp only [runCalls, expectCalls]
    rw [k1, hb]
    simp only [List.map_cons, i1]
    rw [hp]
    exact ⟨rfl, i2⟩

/-- `WARC-Target-URI` is the only header that loading changes. -/
theorem fields_getHeader (f : HeadFormat) (h : StatusAndHeaders) {m : Str} (hm : PyUni.lower (lit "WARC-Target-URI") ≠ PyUni.lower m) :
    (fields f h).headers.getHeader m = h.getHeader m := by
  unfold fields
  split
  · rfl
  · exact ensureTargetUri_other h hm

theorem lower_ne {a b : Str} (ha : isAscii a = true) (hb : isAscii b = true) (h : a.map Char.toLower ≠ b.map Char.toLower) :
    PyUni.lower a ≠ PyUni.lower b := by
  rw [PyUni.lower_ascii _ ha, PyUni.lower_ascii _ hb]; exact h

theorem tu_ne_cl : PyUni.lower (lit "WARC-Target-URI") ≠ PyUni.lower (lit "Content-Length") := lower_ne (by decide) (by decide) (by decide)
theorem tu_ne_ct : PyUni.lower (lit "WARC-Target-URI") ≠ PyUni.lower (lit "Content-Type") := lower_ne (by decide) (by decide) (by decide)

theorem fields_warc (h : StatusAndHeaders) :
    (fields .warc h).format = .warc ∧ (fields .warc h).recType = h.getHeader (lit "WARC-Type") ∧
    (fields .warc h).uri = (ensureTargetUri h).1 ∧ (fields .warc h).length = h.getHeader (lit "Content-Length") ∧
    (fields .warc h).contentType = h.getHeader (lit "Content-Type") ∧ (fields .warc h).subLen = 0 ∧
    (fields .warc h).headers = (ensureTargetUri h).2 := by
  refine ⟨rfl, rfl, rfl, ?_, ?_, rfl, rfl⟩
  · exact ensureTargetUri_other h tu_ne_cl
  · exact ensureTargetUri_other h tu_ne_ct

end
end Loader
end Warcio
