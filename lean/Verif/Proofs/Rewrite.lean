import Verif.Spec.Rewrite
import Verif.Proofs.Copy
import Verif.Proofs.ReadBack
import Verif.Props.Headers

/-!
# Reading a record and writing it again
-/

set_option linter.unusedSectionVars false

namespace Warcio

open StatusAndHeaders Builder Writer Loader

section
variable [PyUni]

/-- Replacing the value of the only header with the name. -/
theorem replaceIn_map {n v : Str} : ∀ {hs : List Header}, AtMostOne n hs → (∃ h ∈ hs, nameEq n h = true) →
    (replaceIn hs n v).2 = hs.map (fun h => if PyUni.lower h.1 = PyUni.lower n then (h.1, v) else h) := by
  intro hs h1 h2
  rcases last_match n hs with h0 | ⟨pre, x, post, rfl, e1, e2⟩
  · obtain ⟨h, k1, k2⟩ := h2
    rw [h0 h k1] at k2; cases k2
  · have hpre : ∀ y ∈ pre, nameEq n y = false := by
      intro y hy
      have h : ((pre ++ x :: post).filter (nameEq n)).length ≤ 1 := h1
      rw [List.filter_append, List.filter_cons, if_pos e1] at h
      simp only [List.length_append, List.length_cons] at h
      have h0 : (pre.filter (nameEq n)).length = 0 := by omega
      cases hb : nameEq n y with
      | false => rfl
      | true =>
        have hm : y ∈ pre.filter (nameEq n) := List.mem_filter.2 ⟨hy, hb⟩
        rw [List.length_eq_zero_iff.1 h0] at hm
        cases hm
    have hid : ∀ l : List Header, (∀ y ∈ l, nameEq n y = false) → l.map (fun h => if PyUni.lower h.1 = PyUni.lower n then (h.1, v) else h) = l := by
      intro l hl
      rw [List.map_congr_left (g := id)]
      · simp
      · intro y hy
        have := hl y hy
        simp only [nameEq, beq_eq_false_iff_ne] at this
        rw [if_neg this]; rfl
    have e1' : PyUni.lower x.1 = PyUni.lower n := by simpa [nameEq] using e1
    rw [replaceIn_some e1 e2, List.map_append, List.map_cons, hid pre hpre, hid post e2, if_pos e1']

theorem exists_of_value {n t : Str} {hs : List Header} (h : firstValue n hs = some t) : ∃ x ∈ hs, nameEq n x = true ∧ x.2 = t := by
  unfold firstValue at h
  rw [Option.map_eq_some_iff] at h
  obtain ⟨x, k1, k2⟩ := h
  exact ⟨x, List.mem_of_find?_eq_some k1, by simpa [nameEq] using List.find?_some k1, k2⟩

/-- Replacing a value by itself. -/
theorem replaceIn_same {n v : Str} {hs : List Header} (h1 : AtMostOne n hs) (h2 : firstValue n hs = some v) : (replaceIn hs n v).2 = hs := by
  obtain ⟨x, k1, k2, k3⟩ := exists_of_value h2
  rcases last_match n hs with h0 | ⟨pre, y, post, rfl, e1, e2⟩
  · rw [h0 x k1] at k2; cases k2
  · rw [replaceIn_some e1 e2]
    have : lastValue n (pre ++ y :: post) = some y.2 := by
      rw [lastValue_append, lastValue_cons, lastValue_none.2 e2, lastValue_one e1]; rfl
    rw [first_last h1, this] at h2
    cases h2
    rfl

theorem atMostOne_append {n : Str} {a b : List Header} (h : AtMostOne n a) (hb : b.filter (nameEq n) = []) : AtMostOne n (a ++ b) := by
  show ((a ++ b).filter (nameEq n)).length ≤ 1
  rw [List.filter_append, hb, List.append_nil]
  exact h

end

/-- The record as it is handed out. -/
def withRaw {τ : Type} (r : Record Unit) (raw : τ) : Record τ :=
  { format := r.format, recType := r.recType, recHeaders := r.recHeaders, rawStream := raw, httpHeaders := r.httpHeaders, contentType := r.contentType,
    length := r.length, payloadLength := r.payloadLength, checker := r.checker }

theorem current_eq {σ : Type} (it : ArchiveIter σ) : it.current = it.record.map (fun r => withRaw r it.raw) := rfl

section
variable [PyUni] {w : WarcRecord} {io : IterOpts} {m : Nat} {rec : Record Unit} {left payload : Bytes} {τ : Type}

theorem takeLine_mem {b : Bytes} (h : b ≠ []) : takeLine b ∈ splitLines b := by
  rw [splitLines_cons h]; simp

theorem VersionLine.status {b : Bytes} {p s : Str} (h : VersionLine b p s) : strip s = s ∧ '\n' ∉ s := by
  obtain ⟨h1, h2, rfl⟩ := h
  refine ⟨strip_strip _, ?_⟩
  by_cases hb : b = []
  · subst hb
    have : ∀ n, strip ((lineText (takeLine ([] : Bytes))).drop n) = [] := by
      have : lineText (takeLine ([] : Bytes)) = [] := by decide
      intro n; rw [this, List.drop_nil]; rfl
    rw [this]; simp
  · intro hc
    refine lineText_lf (takeLine_mem hb) ?_
    have h3 : ∀ x ∈ strip ((lineText (takeLine b)).drop p.length), x ∈ (lineText (takeLine b)).drop p.length := by
      intro x hx
      unfold strip rstrip at hx
      have := (rdropWhile_prefix _ _).subset hx
      exact (List.dropWhile_suffix _).subset this
    exact List.mem_of_mem_drop (h3 _ hc)

/-- What of `Rewritable` is needed to write the record. -/
structure WarcRecord.Shaped (w : WarcRecord) (m : Nat) (payload : Bytes) : Prop where
  headers : ∀ h ∈ w.headers, GoodHeader h
  oneLength : AtMostOne (lit "Content-Length") w.headers
  oneType : AtMostOne (lit "Content-Type") w.headers
  tidy : ∀ u, w.value (lit "WARC-Target-URI") = some u → WarcRecord.TidyUri u
  splits : ∃ hb, w.Splits m hb payload
  revisit : w.value (lit "WARC-Type") = some (lit "revisit") → payload = []
  length : ∃ t, w.value (lit "Content-Length") = some t
  uri : HttpType (w.value (lit "WARC-Type")) → w.value (lit "WARC-Target-URI") ≠ none

theorem WarcRecord.Rewritable.shaped (h : w.Rewritable m payload) : w.Shaped m payload :=
  ⟨h.headers, h.oneLength, h.oneType, h.tidy, h.splits, h.revisit, h.good.length.imp (fun _ h => h.1), h.good.uri⟩

variable (hw : w.Shaped m payload) (hs : w.Shows io m rec left)

include hw hs in
theorem read_regular (raw : τ) : Regular (OutRecord.ofRead (withRaw rec raw)) := by
  have hh := hs.headers hw.tidy
  refine ⟨hs.version.1, hs.version.status, ?_, ?_, ?_, ?_, ?_, ?_, ?_⟩
  · show ∀ h ∈ rec.recHeaders.headers, GoodHeader h
    rw [hh]; exact hw.headers
  · intro t ht
    have ht : rec.contentType = some t := ht
    rw [hs.contentType] at ht
    obtain ⟨x, k1, -, k3⟩ := exists_of_value ht
    have := goodHeader_value (hw.headers x k1)
    rw [k3] at this
    have good : GoodHeader (lit "Content-Type", []) := ⟨⟨by decide, by decide, by decide, by decide, by decide⟩, by decide, by decide⟩
    exact goodHeader_name good this
  · show AtMostOne _ rec.recHeaders.headers
    rw [hh]; exact hw.oneLength
  · show AtMostOne _ rec.recHeaders.headers
    rw [hh]; exact hw.oneType
  · show rec.recType = firstValue _ rec.recHeaders.headers
    rw [hh]; exact hs.recType
  · show HttpType rec.recType → firstValue _ rec.recHeaders.headers ≠ none
    rw [hh, hs.recType]; exact hw.uri
  · show ∀ u, firstValue _ rec.recHeaders.headers = some u → _
    rw [hh]; exact hw.tidy

theorem ascii_toStr {h : StatusAndHeaders} (hp : h.protocol ≠ []) (ha : isAscii (headText h.protocol h.statusline h.headers) = true) : isAscii h.toStr = true := by
  have e : headText h.protocol h.statusline h.headers = h.toStr ++ lit "\r\n" := by
    have e : utf8Encode (headText h.protocol h.statusline h.headers) = utf8Encode (h.toStr ++ lit "\r\n") := by
      rw [← toBytes_headText hp, utf8Encode_append]
      rfl
    have e := congrArg utf8Decode e
    rw [utf8Decode_encode, utf8Decode_encode] at e
    exact Option.some.inj e
  rw [e] at ha
  unfold isAscii at ha ⊢
  rw [List.all_append, Bool.and_eq_true] at ha
  exact ha.1

include hw hs in
/-- What the writer finds in a record that was read. -/
theorem read_parts (hn : io.noRecordParse = false) (he : io.ensureHttpHeaders = false) (raw : τ) : ∃ hb, left = payload ∧ w.block = hb ++ payload ∧ HttpPart some (OutRecord.ofRead (withRaw rec raw)) hb ∧
    LengthsFit (OutRecord.ofRead (withRaw rec raw)) hb left := by
  obtain ⟨hb, hsp⟩ := hw.splits
  cases hsp with
  | whole h0 =>
    obtain ⟨k1, k2, k3⟩ := hs.block (.inr h0)
    refine ⟨[], k1, rfl, .none (k3 he), .block (fun h => absurd rfl h) ?_⟩
    show rec.length = _
    rw [hs.length]
    congr 2
    show w.block = [] ++ (if rec.recType = some (lit "revisit") then [] else left)
    rw [List.nil_append, k1]
    split
    · rename_i hr
      exact hw.revisit (hs.recType ▸ hr)
    · rfl
  | http h _ h1 h2 h3 h4 h5 =>
    have hbb := (toBytes_headText h2.protocol.1)
    have key := httpHead_toBytes h2 payload
    rw [hbb, ← h4] at key
    obtain ⟨y, k1, k2⟩ := hs.http hn h1 h5 key.first
    obtain ⟨d1, d2, d3, d4⟩ := k1.det key
    obtain ⟨k3, k4⟩ := k2 (by rw [d2, d3]; exact h2.truthy)
    have hne : utf8Encode (headText h.protocol h.statusline h.headers) ≠ [] := by
      rw [← hbb]
      intro hc
      have := (httpHead_toBytes h2 []).first
      rw [List.append_nil, hc] at this
      exact this rfl
    refine ⟨_, d4, h4, .some y _ k3 (by rw [d2, d3]; exact h2.truthy) ?_, .payload _ hne k4 (by simp only [len]; omega) (fun _ => rfl)⟩
    rw [← d1, ← d2, ← d3]
    have hp : y.protocol ≠ [] := by rw [d1]; exact h2.protocol.1
    show (y.toAsciiBytes).1 = _
    rw [Props.C15_ascii_unchanged y (ascii_toStr hp (by rw [d1, d2, d3]; exact h3)), toBytes_headText hp]

theorem has_iff {n : Str} {hs : List Header} : Loader.truthy (findHeader n hs) = true ↔ ∃ c t, firstValue n hs = some (c :: t) := by
  rw [firstValue_eq]
  unfold Loader.truthy
  cases findHeader n hs with
  | none => simp
  | some v => cases v <;> simp

include hw hs in
theorem read_headers (f : Bytes → Bytes) (raw : τ) {hb : Bytes} (hl : left = payload) (hb' : w.block = hb ++ payload) :
    w.NewHeaders f payload (writtenHeaders f (OutRecord.ofRead (withRaw rec raw)) hb left) ∧ blockOf (OutRecord.ofRead (withRaw rec raw)) hb left = w.block := by
  subst hl
  have hh := hs.headers hw.tidy
  have hblock : blockOf (OutRecord.ofRead (withRaw rec raw)) hb left = w.block := by
    rw [hb']
    show hb ++ (if rec.recType = some (lit "revisit") then [] else left) = _
    split
    · rename_i hr
      rw [hw.revisit (hs.recType ▸ hr)]
    · rfl
  refine ⟨?_, hblock⟩
  have hbase : baseHeaders (OutRecord.ofRead (withRaw rec raw)) = w.headers := by
    unfold baseHeaders
    rw [show (OutRecord.ofRead (withRaw rec raw)).length = some _ from hs.length]
    exact hh
  obtain ⟨n1, n2, n3, n4, n5, n6⟩ := names_differ
  unfold writtenHeaders
  rw [hblock]
  unfold digestedHeaders
  rw [hbase]
  rw [show (OutRecord.ofRead (withRaw rec raw)).recType = w.value (lit "WARC-Type") from hs.recType,
    show (OutRecord.ofRead (withRaw rec raw)).contentType = w.value (lit "Content-Type") from hs.contentType]
  generalize hwp : (!(Loader.truthy (findHeader (lit "WARC-Payload-Digest") w.headers) || noPayloadDigest (w.value (lit "WARC-Type")))) = wp
  generalize hwb : (!Loader.truthy (findHeader (lit "WARC-Block-Digest") w.headers)) = wb
  have ht : typedHeaders (w.value (lit "Content-Type")) (w.headers ++ newDigests f wp wb hb left) = w.headers ++ newDigests f wp wb hb left := by
    unfold typedHeaders
    split
    · rename_i t hct
      have p := newDigests_passes f hb left (passes_other n4.symm) (passes_other n5.symm) wp wb
      refine replaceIn_same (atMostOne_append hw.oneType p) ?_
      rw [firstValue_eq, findHeader_filter, List.filter_append, p, List.append_nil, ← findHeader_filter, ← firstValue_eq]
      exact hct
    · rfl
  rw [ht]
  have p := newDigests_passes f hb left (passes_other n2.symm) (passes_other n3.symm) wp wb
  obtain ⟨tl, t1⟩ := hw.length
  obtain ⟨x, x1, x2, -⟩ := exists_of_value t1
  rw [replaceIn_map (atMostOne_append hw.oneLength p) ⟨x, List.mem_append_left _ x1, x2⟩, List.map_append]
  have hid : (newDigests f wp wb hb left).map (fun h => if PyUni.lower h.1 = PyUni.lower (lit "Content-Length") then (h.1, intToStr (len w.block)) else h) =
      newDigests f wp wb hb left := by
    rw [List.map_congr_left (g := id)]
    · simp
    · intro y hy
      have := List.filter_eq_nil_iff.1 p y hy
      simp only [nameEq, beq_iff_eq] at this
      rw [if_neg this]; rfl
  rw [hid]
  refine ⟨if wp then [(lit "WARC-Payload-Digest", sha1Of f left)] else [], if wb then [(lit "WARC-Block-Digest", sha1Of f (hb ++ left))] else [], ?_, ?_, ?_, ?_, ?_⟩
  · rw [List.append_assoc]; rfl
  · intro h
    have : wp = false := by
      rw [← hwp, Bool.not_eq_false', Bool.or_eq_true]
      rcases h with h | h | h
      · exact .inl (has_iff.2 h)
      · right; rw [h]; decide
      · right; rw [h]; decide
    rw [this]; rfl
  · intro h h1 h2
    have : wp = true := by
      rw [← hwp, Bool.not_eq_true', Bool.or_eq_false_iff]
      refine ⟨?_, ?_⟩
      · rw [← Bool.not_eq_true]; exact fun hc => h (has_iff.1 hc)
      · unfold noPayloadDigest
        simp [h1, h2]
    rw [this]; rfl
  · intro h
    have : wb = false := by
      rw [← hwb, Bool.not_eq_false']; exact has_iff.2 h
    rw [this]; rfl
  · intro h
    have : wb = true := by
      rw [← hwb, Bool.not_eq_true', ← Bool.not_eq_true]; exact fun hc => h (has_iff.1 hc)
    rw [this, hb']; rfl

include hw hs in
theorem read_rewritten (f : Bytes → Bytes) (raw : τ) {hb : Bytes} (hl : left = payload) (hb' : w.block = hb ++ payload) :
    w.Rewritten f payload (fileRecord f hb left (OutRecord.ofRead (withRaw rec raw))) := by
  obtain ⟨h1, h2⟩ := read_headers hw hs f raw hl hb'
  have hr := read_regular hw hs raw
  refine ⟨hr.good, ?_, h1, h2, rfl⟩
  intro p s hv
  obtain ⟨rfl, rfl⟩ := WarcRecord.versionLine_unique hs.version hv
  refine ⟨?_, rfl⟩
  have := versionLine_toBytes (hr.wellFormed (f := f) (hb := hb) (d := left)) []
  rw [List.append_nil, toBytes_headText (show (⟨_, _, _, 0, none⟩ : StatusAndHeaders).protocol ≠ [] from hr.protocol_ne)] at this
  exact this

/-- A record in normal form is not changed. -/
theorem WarcRecord.Normal.same {f : Bytes → Bytes} (hn : w.Normal) (h1 : AtMostOne (lit "Content-Length") w.headers) {w' : WarcRecord}
    (h : w.Rewritten f payload w') : w' = w := by
  obtain ⟨p, s, v1, v2⟩ := hn.head
  obtain ⟨-, v3⟩ := h.head p s v1
  obtain ⟨pd, bd, e1, e2, -, e4, -⟩ := h.headers
  rw [e2 hn.payloadDigest, e4 hn.blockDigest, List.append_nil, List.append_nil] at e1
  obtain ⟨x, x1, x2, x3⟩ := exists_of_value hn.length
  rw [← replaceIn_map h1 ⟨x, x1, x2⟩, replaceIn_same h1 hn.length] at e1
  rw [e1, ← v2] at v3
  have e5 := h.block
  have e6 := h.sep
  rw [← hn.sep] at e6
  cases w; cases w'
  simp_all

/-! ## The rewritten record -/

/-- Set the length. -/
def setLength (v : Str) (h : Header) : Header := if PyUni.lower h.1 = PyUni.lower (lit "Content-Length") then (h.1, v) else h

theorem setLength_fst (v : Str) (h : Header) : (setLength v h).1 = h.1 := by
  unfold setLength; split <;> rfl

theorem nameEq_setLength (n v : Str) (h : Header) : nameEq n (setLength v h) = nameEq n h := by
  unfold nameEq; rw [setLength_fst]

theorem find_setLength {n : Str} (hn : PyUni.lower (lit "Content-Length") ≠ PyUni.lower n) (v : Str) (hs : List Header) :
    firstValue n (hs.map (setLength v)) = firstValue n hs := by
  rw [firstValue_eq, firstValue_eq]
  induction hs with
  | nil => rfl
  | cons a t ih =>
    rw [List.map_cons, findHeader, findHeader, nameEq_setLength, ih]
    split
    · rename_i h
      have : PyUni.lower a.1 ≠ PyUni.lower (lit "Content-Length") := by
        have : PyUni.lower a.1 = PyUni.lower n := by simpa [nameEq] using h
        rw [this]; exact hn.symm
      unfold setLength
      rw [if_neg this]
    · rfl

theorem find_length {v : Str} {hs : List Header} (h : ∃ x ∈ hs, nameEq (lit "Content-Length") x = true) : firstValue (lit "Content-Length") (hs.map (setLength v)) = some v := by
  rw [firstValue_eq]
  induction hs with
  | nil => obtain ⟨x, h, -⟩ := h; cases h
  | cons a t ih =>
    rw [List.map_cons, findHeader, nameEq_setLength]
    split
    · rename_i h1
      have : PyUni.lower a.1 = PyUni.lower (lit "Content-Length") := by simpa [nameEq] using h1
      unfold setLength
      rw [if_pos this]
    · rename_i h1
      refine ih ?_
      obtain ⟨x, h2, h3⟩ := h
      rcases List.mem_cons.1 h2 with rfl | h2
      · exact absurd h3 h1
      · exact ⟨x, h2, h3⟩

theorem firstValue_append (n : Str) (a b : List Header) : firstValue n (a ++ b) = (firstValue n a).or (firstValue n b) := by
  rw [firstValue_eq, firstValue_eq, firstValue_eq, findHeader_append]

theorem firstValue_one {n : Str} {x : Header} (h : nameEq n x = true) : firstValue n [x] = some x.2 := by
  rw [firstValue_eq]; simp [findHeader, h]

theorem firstValue_not {n : Str} {x : Header} (h : nameEq n x = false) : firstValue n [x] = none := by
  rw [firstValue_eq]; simp [findHeader, h]

theorem filter_setLength (n v : Str) (hs : List Header) : ((hs.map (setLength v)).filter (nameEq n)).length = (hs.filter (nameEq n)).length := by
  induction hs with
  | nil => rfl
  | cons a t ih =>
    rw [List.map_cons, List.filter_cons, List.filter_cons, nameEq_setLength]
    split <;> simp [ih]

variable {f : Bytes → Bytes} {w' : WarcRecord}

/-- Values other than the length and the digests stay. -/
theorem NewHeaders.value {hs : List Header} (h : w.NewHeaders f payload hs) {n : Str} (n1 : PyUni.lower (lit "Content-Length") ≠ PyUni.lower n)
    (n2 : PyUni.lower (lit "WARC-Payload-Digest") ≠ PyUni.lower n) (n3 : PyUni.lower (lit "WARC-Block-Digest") ≠ PyUni.lower n) : firstValue n hs = w.value n := by
  obtain ⟨pd, bd, rfl, h1, h2, h3, h4⟩ := h
  have hp : firstValue n pd = none := by
    by_cases c : w.Has (lit "WARC-Payload-Digest") ∨ w.value (lit "WARC-Type") = some (lit "warcinfo") ∨ w.value (lit "WARC-Type") = some (lit "revisit")
    · rw [h1 c]; rfl
    · rw [h2 (fun h => c (.inl h)) (fun h => c (.inr (.inl h))) (fun h => c (.inr (.inr h)))]
      exact firstValue_not (nameEq_other n2 (nameEq_self _ _))
  have hb : firstValue n bd = none := by
    by_cases c : w.Has (lit "WARC-Block-Digest")
    · rw [h3 c]; rfl
    · rw [h4 c]
      exact firstValue_not (nameEq_other n3 (nameEq_self _ _))
  rw [firstValue_append, firstValue_append, hp, hb]
  have : firstValue n (w.headers.map (setLength (intToStr (len w.block)))) = firstValue n w.headers := find_setLength n1 _ _
  rw [show (w.headers.map (fun h => if PyUni.lower h.1 = PyUni.lower (lit "Content-Length") then (h.1, intToStr (len w.block)) else h)) = w.headers.map (setLength (intToStr (len w.block))) from rfl, this]
  show ((firstValue n w.headers).or none).or none = firstValue n w.headers
  cases firstValue n w.headers <;> rfl

theorem NewHeaders.parts {hs : List Header} (h : w.NewHeaders f payload hs) : ∃ pd bd, hs = w.headers.map (setLength (intToStr (len w.block))) ++ pd ++ bd ∧
    (pd = [] ∨ pd = [(lit "WARC-Payload-Digest", sha1Text f payload)]) ∧ (bd = [] ∨ bd = [(lit "WARC-Block-Digest", sha1Text f w.block)]) := by
  obtain ⟨pd, bd, rfl, h1, h2, h3, h4⟩ := h
  refine ⟨pd, bd, rfl, ?_, ?_⟩
  · by_cases c : w.Has (lit "WARC-Payload-Digest") ∨ w.value (lit "WARC-Type") = some (lit "warcinfo") ∨ w.value (lit "WARC-Type") = some (lit "revisit")
    · exact .inl (h1 c)
    · exact .inr (h2 (fun h => c (.inl h)) (fun h => c (.inr (.inl h))) (fun h => c (.inr (.inr h))))
  · by_cases c : w.Has (lit "WARC-Block-Digest")
    · exact .inl (h3 c)
    · exact .inr (h4 c)

theorem NewHeaders.length {hs : List Header} (h : w.NewHeaders f payload hs) (hx : ∃ t, w.value (lit "Content-Length") = some t) :
    firstValue (lit "Content-Length") hs = some (intToStr (len w.block)) := by
  obtain ⟨pd, bd, rfl, -, -⟩ := NewHeaders.parts h
  obtain ⟨t, ht⟩ := hx
  obtain ⟨x, x1, x2, -⟩ := exists_of_value ht
  rw [firstValue_append, firstValue_append, find_length ⟨x, x1, x2⟩]
  rfl

/-- The block digest of the rewritten record: the old one, or the right one. -/
theorem NewHeaders.blockDigest {hs : List Header} (h : w.NewHeaders f payload hs) :
    (w.Has (lit "WARC-Block-Digest") → firstValue (lit "WARC-Block-Digest") hs = w.value (lit "WARC-Block-Digest")) ∧
    (w.value (lit "WARC-Block-Digest") = none → firstValue (lit "WARC-Block-Digest") hs = some (sha1Text f w.block)) := by
  have n2 := names_differ.2.1
  have n6 := names_differ.2.2.2.2.2
  have hv : ∀ pd bd : List Header, firstValue (lit "WARC-Block-Digest") (w.headers.map (setLength (intToStr (len w.block))) ++ pd ++ bd) =
      ((w.value (lit "WARC-Block-Digest")).or (firstValue (lit "WARC-Block-Digest") pd)).or (firstValue (lit "WARC-Block-Digest") bd) := by
    intro pd bd
    rw [firstValue_append, firstValue_append, find_setLength n2]
    rfl
  obtain ⟨pd, bd, rfl, h1, h2, h3, h4⟩ := h
  constructor
  · rintro ⟨c, t, hc⟩
    have := hv pd bd
    rw [hc] at this
    rw [hc]
    exact this
  · intro hc
    have hno : ¬ w.Has (lit "WARC-Block-Digest") := by
      rintro ⟨c, t, h⟩; rw [hc] at h; cases h
    have hp : firstValue (lit "WARC-Block-Digest") pd = none := by
      by_cases c : w.Has (lit "WARC-Payload-Digest") ∨ w.value (lit "WARC-Type") = some (lit "warcinfo") ∨ w.value (lit "WARC-Type") = some (lit "revisit")
      · rw [h1 c]; rfl
      · rw [h2 (fun h => c (.inl h)) (fun h => c (.inr (.inl h))) (fun h => c (.inr (.inr h)))]
        exact firstValue_not (nameEq_other n6.symm (nameEq_self _ _))
    have := hv pd bd
    rw [hc, hp, h4 hno, firstValue_one (nameEq_self _ _)] at this
    rw [h4 hno]
    exact this

theorem NewHeaders.payloadDigest {hs : List Header} (h : w.NewHeaders f payload hs) :
    (w.Has (lit "WARC-Payload-Digest") → firstValue (lit "WARC-Payload-Digest") hs = w.value (lit "WARC-Payload-Digest")) ∧
    (w.value (lit "WARC-Payload-Digest") = none → w.value (lit "WARC-Type") ≠ some (lit "warcinfo") → w.value (lit "WARC-Type") ≠ some (lit "revisit") →
      firstValue (lit "WARC-Payload-Digest") hs = some (sha1Text f payload)) ∧
    (w.value (lit "WARC-Payload-Digest") = none → w.value (lit "WARC-Type") = some (lit "warcinfo") ∨ w.value (lit "WARC-Type") = some (lit "revisit") →
      firstValue (lit "WARC-Payload-Digest") hs = none) := by
  have n3 := names_differ.2.2.1
  have n6 := names_differ.2.2.2.2.2
  have hv : ∀ pd bd : List Header, firstValue (lit "WARC-Payload-Digest") (w.headers.map (setLength (intToStr (len w.block))) ++ pd ++ bd) =
      ((w.value (lit "WARC-Payload-Digest")).or (firstValue (lit "WARC-Payload-Digest") pd)).or (firstValue (lit "WARC-Payload-Digest") bd) := by
    intro pd bd
    rw [firstValue_append, firstValue_append, find_setLength n3]
    rfl
  obtain ⟨pd, bd, rfl, h1, h2, h3, h4⟩ := h
  have hb : firstValue (lit "WARC-Payload-Digest") bd = none := by
    by_cases c : w.Has (lit "WARC-Block-Digest")
    · rw [h3 c]; rfl
    · rw [h4 c]
      exact firstValue_not (nameEq_other n6 (nameEq_self _ _))
  have hno : w.value (lit "WARC-Payload-Digest") = none → ¬ w.Has (lit "WARC-Payload-Digest") := by
    rintro hc ⟨c, t, h⟩; rw [hc] at h; cases h
  refine ⟨?_, ?_, ?_⟩
  · rintro ⟨c, t, hc⟩
    have := hv pd bd
    rw [hc] at this
    rw [hc]
    exact this
  · intro hc t1 t2
    have := hv pd bd
    rw [hc, h2 (hno hc) t1 t2, firstValue_one (nameEq_self _ _), hb] at this
    rw [h2 (hno hc) t1 t2]
    exact this
  · intro hc ht
    have := hv pd bd
    rw [hc, h1 (.inr ht), hb] at this
    rw [h1 (.inr ht)]
    exact this

theorem sha1Text_cons (f : Bytes → Bytes) (d : Bytes) : ∃ t, sha1Text f d = 's' :: t := ⟨_, rfl⟩

theorem Rewritten.value (h : w.Rewritten f payload w') {n : Str} (n1 : PyUni.lower (lit "Content-Length") ≠ PyUni.lower n)
    (n2 : PyUni.lower (lit "WARC-Payload-Digest") ≠ PyUni.lower n) (n3 : PyUni.lower (lit "WARC-Block-Digest") ≠ PyUni.lower n) : w'.value n = w.value n :=
  NewHeaders.value h.headers n1 n2 n3

/-- The rewritten record is in normal form, and can be rewritten again. -/
theorem Rewritten.normal (hw : w.Rewritable m payload) (h : w.Rewritten f payload w') (hv : ∃ p s, VersionLine w.head p s)
    (hb : w.value (lit "WARC-Block-Digest") ≠ some []) (hp : w.value (lit "WARC-Payload-Digest") ≠ some []) : w'.Normal ∧ w'.Rewritable m payload := by
  have ht : w'.value (lit "WARC-Type") = w.value (lit "WARC-Type") :=
    Rewritten.value h (differ (by decide) (by decide) (by decide)) (differ (by decide) (by decide) (by decide)) (differ (by decide) (by decide) (by decide))
  have hu : w'.value (lit "WARC-Target-URI") = w.value (lit "WARC-Target-URI") :=
    Rewritten.value h (differ (by decide) (by decide) (by decide)) (differ (by decide) (by decide) (by decide)) (differ (by decide) (by decide) (by decide))
  have hhttp : w'.Http ↔ w.Http := by
    unfold WarcRecord.Http
    rw [ht, hu]
  obtain ⟨pd, bd, e, epd, ebd⟩ := NewHeaders.parts h.headers
  obtain ⟨n1, n2, n3, n4, n5, n6⟩ := names_differ
  have hone : ∀ n, PyUni.lower (lit "WARC-Payload-Digest") ≠ PyUni.lower n → PyUni.lower (lit "WARC-Block-Digest") ≠ PyUni.lower n → AtMostOne n w.headers → AtMostOne n w'.headers := by
    intro n a1 a2 a3
    show (w'.headers.filter (nameEq n)).length ≤ 1
    have hp : pd.filter (nameEq n) = [] := by
      rcases epd with rfl | rfl
      · rfl
      · simp [nameEq_other a1 (nameEq_self _ _)]
    have hb : bd.filter (nameEq n) = [] := by
      rcases ebd with rfl | rfl
      · rfl
      · simp [nameEq_other a2 (nameEq_self _ _)]
    rw [e, List.filter_append, List.filter_append, hp, hb, List.append_nil, List.append_nil, filter_setLength]
    exact a3
  constructor
  · refine ⟨?_, ?_, ?_, ?_, h.sep⟩
    · obtain ⟨p, s, hv⟩ := hv
      exact ⟨p, s, h.head p s hv⟩
    · obtain ⟨t, ht, -⟩ := hw.good.length
      show firstValue _ w'.headers = _
      rw [h.block]
      exact NewHeaders.length h.headers ⟨t, ht⟩
    · rw [ht]
      by_cases c : w.value (lit "WARC-Type") = some (lit "warcinfo") ∨ w.value (lit "WARC-Type") = some (lit "revisit")
      · exact .inr c
      · left
        obtain ⟨k1, k2, -⟩ := NewHeaders.payloadDigest h.headers
        show ∃ c t, firstValue (lit "WARC-Payload-Digest") w'.headers = some (c :: t)
        cases hx : w.value (lit "WARC-Payload-Digest") with
        | none =>
          obtain ⟨t, ht⟩ := sha1Text_cons f payload
          exact ⟨'s', t, by rw [k2 hx (fun h => c (.inl h)) (fun h => c (.inr h)), ht]⟩
        | some v =>
          cases v with
          | nil => exact absurd hx hp
          | cons a t => exact ⟨a, t, by rw [k1 ⟨a, t, hx⟩, hx]⟩
    · obtain ⟨k1, k2⟩ := NewHeaders.blockDigest h.headers
      show ∃ c t, firstValue (lit "WARC-Block-Digest") w'.headers = some (c :: t)
      cases hx : w.value (lit "WARC-Block-Digest") with
      | none =>
        obtain ⟨t, ht⟩ := sha1Text_cons f w.block
        exact ⟨'s', t, by rw [k2 hx, ht]⟩
      | some v =>
        cases v with
        | nil => exact absurd hx hb
        | cons a t => exact ⟨a, t, by rw [k1 ⟨a, t, hx⟩, hx]⟩
  · refine ⟨h.good, ?_, hone _ n3.symm n2.symm hw.oneLength, hone _ n5.symm n4.symm hw.oneType, by rw [hu]; exact hw.tidy, ?_, by rw [ht]; exact hw.revisit⟩
    · rw [e]
      intro x hx
      rcases List.mem_append.1 hx with hx | hx
      · rcases List.mem_append.1 hx with hx | hx
        · obtain ⟨y, y1, rfl⟩ := List.mem_map.1 hx
          have := hw.headers y y1
          unfold setLength
          split
          · exact goodHeader_name this (noSpace_value (intToStr_noSpace _))
          · exact this
        · rcases epd with rfl | rfl
          · cases hx
          · rw [List.mem_singleton.1 hx]
            exact goodHeader_name goodName_payload (noSpace_value (sha1Of_noSpace f payload))
      · rcases ebd with rfl | rfl
        · cases hx
        · rw [List.mem_singleton.1 hx]
          exact goodHeader_name goodName_block (noSpace_value (sha1Of_noSpace f w.block))
    · obtain ⟨hb, hs⟩ := hw.splits
      cases hs with
      | whole h0 =>
        refine ⟨[], ?_⟩
        have := SplitsOf.whole (http := w'.Http) (block := w'.block) (m := m) (by rw [hhttp, h.block]; exact h0)
        rw [h.block] at this
        show SplitsOf w'.Http w'.block m [] w.block; rw [h.block]; exact this
      | http x _ h1 h2 h3 h4 h5 =>
        exact ⟨_, .http x payload (hhttp.2 h1) h2 h3 (by rw [h.block]; exact h4) (by rw [h.block]; exact h5)⟩

end
end Warcio
