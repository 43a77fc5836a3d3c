import Verif.Spec.Arc
import Verif.Proofs.OpenArchive
import Verif.Proofs.Yields
import Verif.Props.RecordLoader

/-!
# ARC records as items of an archive
-/

set_option linter.unusedSectionVars false

namespace Warcio

open Loader ArchiveIter

/-- No text encoded in UTF-8 starts like a gzip member. -/
theorem encode_magic {s : Str} {b t : Bytes} (hb : b = utf8Encode s) (hl : 2 ≤ b.length) : ¬ [0x1f, 0x8b] <+: b ++ t := by
  rintro ⟨u, hu⟩
  have h1 := utf8Decode_encode s
  rw [← hb] at h1
  match b, hl with
  | x :: y :: r, _ =>
    simp only [List.cons_append, List.nil_append, List.cons.injEq] at hu
    obtain ⟨rfl, rfl, _⟩ := hu
    have : utf8Decode (0x8b :: r) = none := by
      rw [utf8Decode.eq_def]
      cases r with
      | nil => rfl
      | cons y r =>
        show (if (!isCont y) = true then none else none) = none
        split <;> rfl
    rw [utf8Decode.eq_def] at h1
    simp only [this] at h1
    have h2 : UInt8.toNat 31 < 128 := by decide
    rw [if_pos h2] at h1
    cases h1

namespace ArcRecord
variable [PyUni]

/-- The record as an item of the archive. -/
def item (a : ArcRecord) : Item := ⟨a.head, a.block, a.sep⟩

omit [PyUni] in
theorem item_bytes (a : ArcRecord) : a.item.bytes = a.bytes := by
  simp only [Item.bytes, item, bytes, List.append_assoc]

/-- The line with its end is a text. -/
theorem Good.encoded {a : ArcRecord} (h : a.Good) : ∃ e, utf8Encode a.line ++ a.eol = utf8Encode (a.line ++ e) ∧ (e = ['\n'] ∨ e = ['\r', '\n']) := by
  rcases h.eol with he | he
  · exact ⟨['\n'], by rw [utf8Encode_append, he]; rfl, .inl rfl⟩
  · exact ⟨['\r', '\n'], by rw [utf8Encode_append, he]; rfl, .inr rfl⟩

theorem Good.take {a : ArcRecord} (h : a.Good) (rest : Bytes) : takeLine (utf8Encode a.line ++ a.eol ++ rest) = utf8Encode a.line ++ a.eol ∧
    dropLine (utf8Encode a.line ++ a.eol ++ rest) = rest := by
  have h10 : (10 : UInt8) ∉ utf8Encode a.line := fun hm => h.line (nl_mem_encode.1 hm)
  have ht : takeLine (utf8Encode a.line ++ a.eol ++ rest) = utf8Encode a.line ++ a.eol := by
    rcases h.eol with he | he
    · have e : utf8Encode a.line ++ a.eol ++ rest = utf8Encode a.line ++ 10 :: rest := by simp [he]
      rw [e, takeLine_append_nl h10, he]
    · have e : utf8Encode a.line ++ a.eol ++ rest = (utf8Encode a.line ++ [13]) ++ 10 :: rest := by simp [he]
      rw [e, takeLine_append_nl (by simp only [List.mem_append, List.mem_singleton, not_or]; exact ⟨h10, by decide⟩), he]
      simp
  refine ⟨ht, ?_⟩
  rw [← drop_takeLine_length, ht, List.drop_left]

theorem Good.decode {a : ArcRecord} (h : a.Good) : lineText (utf8Encode a.line ++ a.eol) = a.line := by
  obtain ⟨e, h1, h2⟩ := h.encoded
  have hx : rstrip a.line = a.line := by
    show rstrip (arcLine _ _ _ _ _) = arcLine _ _ _ _ _
    unfold arcLine
    have : a.uri ++ ' ' :: a.ip ++ ' ' :: a.date ++ ' ' :: a.ctype ++ ' ' :: a.length = (a.uri ++ ' ' :: a.ip ++ ' ' :: a.date ++ ' ' :: a.ctype ++ [' ']) ++ a.length := by simp
    rw [this]
    exact rdropWhile_append_self _ h.fields.trail h.fields.ne
  unfold lineText
  rw [h1, decodeHeader_encode]
  unfold rstrip
  rw [rdropWhile_append_all _ (by rcases h2 with rfl | rfl <;> decide)]
  exact hx

theorem Good.nl {a : ArcRecord} (h : a.Good) : (10 : UInt8) ∈ a.head := by
  unfold head
  rcases h.eol with he | he <;> simp [he]

theorem line_ne (a : ArcRecord) : a.line ≠ [] := by unfold line arcLine; simp

theorem encoded_two (a : ArcRecord) (h : a.Good) : 2 ≤ (utf8Encode a.line ++ a.eol).length := by
  have h1 : utf8Encode a.line ≠ [] := by
    intro h0
    have := decodeHeader_encode a.line
    rw [h0] at this
    exact a.line_ne this.symm
  have := List.length_pos_iff.2 h1
  rw [List.length_append]
  rcases h.eol with he | he <;> simp [he] <;> omega

theorem Good.no_magic {a : ArcRecord} (h : a.Good) (rest : Bytes) : ¬ [0x1f, 0x8b] <+: a.head ++ rest := by
  obtain ⟨e, h1, -⟩ := h.encoded
  unfold head
  rw [List.append_assoc]
  exact encode_magic h1 (encoded_two a h)

theorem Good.two {a : ArcRecord} (h : a.Good) : 2 ≤ a.bytes.length := by
  have := encoded_two a h
  unfold bytes head
  simp only [List.length_append] at this ⊢
  omega

/-- What is behind the header line is skipped if the record describes the file. -/
theorem Good.skip {a : ArcRecord} (h : a.Good) (full : Str) (hfd : isFiledesc (rstrip full) = decide a.Describes) (t : Bytes) :
    (arcSkip full (splitLines (a.extra ++ t))).1 = len a.extra ∧ (arcSkip full (splitLines (a.extra ++ t))).2.flatten = t := by
  have hx := h.extra
  unfold arcSkip
  rw [hfd]
  by_cases hd : a.Describes
  · rw [if_pos (by simpa using hd)]
    rw [if_pos hd] at hx
    obtain ⟨l, k, e1, e2, e3, e4⟩ := hx
    have f1 : takeLine (a.extra ++ t) = l ++ [10] ∧ dropLine (a.extra ++ t) = k ++ [10] ++ t := by
      have e : a.extra ++ t = l ++ 10 :: (k ++ [10] ++ t) := by rw [e1]; simp
      have ht : takeLine (a.extra ++ t) = l ++ [10] := by rw [e, takeLine_append_nl e2]
      refine ⟨ht, ?_⟩
      rw [← drop_takeLine_length, ht, e]; simp
    have f2 : takeLine (k ++ [10] ++ t) = k ++ [10] ∧ dropLine (k ++ [10] ++ t) = t := by
      have e : k ++ [10] ++ t = k ++ 10 :: t := by simp
      have ht : takeLine (k ++ [10] ++ t) = k ++ [10] := by rw [e, takeLine_append_nl e3]
      refine ⟨ht, ?_⟩
      rw [← drop_takeLine_length, ht, e]; simp
    rw [splitLines_cons (by rw [e1]; simp), f1.1, f1.2, splitLines_cons (by simp), f2.1, f2.2]
    simp only [List.headD_cons, List.tail_cons]
    have a1 : ∀ b ∈ l ++ [10], b.toNat < 128 := fun b hb => by
      have := e4 b (by rw [e1]; exact List.mem_append_left _ hb)
      simpa [UInt8.lt_iff_toNat_lt] using this
    have a2 : ∀ b ∈ k ++ [10], b.toNat < 128 := fun b hb => by
      have := e4 b (by rw [e1]; exact List.mem_append_right _ hb)
      simpa [UInt8.lt_iff_toNat_lt] using this
    rw [decode_ascii _ a1, decode_ascii _ a2, splitLines_flatten]
    refine ⟨?_, rfl⟩
    rw [e1]
    simp only [len, List.length_map, List.length_append]
    omega
  · rw [if_neg (by simpa using hd)]
    rw [if_neg hd] at hx
    rw [hx]
    exact ⟨rfl, splitLines_flatten _⟩

variable [Hashlib]

theorem describes_iff (a : ArcRecord) : isFiledesc a.uri = decide a.Describes := by
  rw [Bool.eq_iff_iff, decide_eq_true_iff]
  unfold isFiledesc startsWith Describes
  rw [List.isPrefixOf_iff_prefix]

theorem converted_eq (a : ArcRecord) (id iso : Str) : Props.converted id a.uri a.ip iso a.ctype a.length = a.converted id iso := by
  unfold Props.converted converted
  rw [describes_iff]
  by_cases h : a.Describes <;> simp [h]

theorem Good.line_take {a : ArcRecord} (h : a.Good) (t : Bytes) :
    takeLine (a.head ++ t) = utf8Encode a.line ++ a.eol ∧ dropLine (a.head ++ t) = a.extra ++ t := by
  have := h.take (a.extra ++ t)
  unfold head
  rw [List.append_assoc (utf8Encode a.line ++ a.eol)]
  exact this

theorem Good.tries {a : ArcRecord} (h : a.Good) {o : LoadOpts} (hk : o.knownFormat ≠ some .warc) (t : Bytes) : TriesArc o (a.head ++ t) := by
  rcases hkf : o.knownFormat with _ | f
  · right
    refine ⟨hkf, ?_, ?_⟩
    · rw [(h.line_take t).1, h.decode]; exact a.line_ne
    · rintro ⟨v, hv, hp⟩
      rw [(h.line_take t).1, h.decode] at hp
      exact h.warc v hv hp
  · cases f with
    | warc => exact absurd hkf hk
    | arc => exact .inl hkf

/-- What the headers of the record come out as. -/
theorem Good.detect {a : ArcRecord} (h : a.Good) {o : LoadOpts} (hk : o.knownFormat ≠ some .warc) (t : Bytes) :
    ∃ hs ls, arcHeaders o a.line [a.uri, a.ip, a.date, a.ctype, a.length] = .ok hs ∧
      detectLines o (decodeHeader (takeLine (a.head ++ t))) (splitLines (dropLine (a.head ++ t))) =
        (.ok (if o.arc2warc then .arc2warc else .arc, { statusline := [], headers := hs, protocol := lit "WARC/1.0", totalLen := len a.extra }), ls) ∧ ls.flatten = t := by
  have e1 : lineText (takeLine (a.head ++ t)) = a.line := by rw [(h.line_take t).1, h.decode]
  obtain ⟨hs, b1, b2⟩ := detect_arc_ok (o := o) (data := a.head ++ t) (by rw [e1]; exact count_arcLine _ _ _ _ _) (splitLines (dropLine (a.head ++ t)))
  rw [e1] at b1
  have e2 : rsplitN ' ' 4 a.line = [a.uri, a.ip, a.date, a.ctype, a.length] := rsplit_arcLine a.uri h.fields
  rw [e2] at b1
  have hfd : isFiledesc (rstrip (decodeHeader (takeLine (a.head ++ t)))) = decide a.Describes := by
    have : rstrip (decodeHeader (takeLine (a.head ++ t))) = a.line := e1
    rw [this, ← describes_iff]
    exact Props.filedesc_line ..
  have hsk := h.skip _ hfd t
  rw [← (h.line_take t).2] at hsk
  refine ⟨hs, _, b1, ?_, hsk.2⟩
  rw [detect_tries (h.tries hk t), b2, hsk.1]

theorem blockOutcome_none (data : Bytes) : BlockOutcome data none none := by
  by_cases h : data = []
  · refine .passed_over h ?_
    rintro ⟨_, h, _⟩; cases h
  · exact .compared _ h .absent

/-- No digests in the headers. -/
theorem no_verdict {checked : Bool} {t seg : Option Str} {data rest : Bytes} {c : DigestChecker} (hj : Judged checked t seg none none data rest c.passed) (hl : c.Loud) :
    c.passed = none ∧ c.problems = [] := by
  have h1 : c.passed = none := by
    cases checked with
    | false => exact hj.1 rfl
    | true =>
      have e1 : (lookedAt t seg none none).1 = none := by unfold lookedAt; split <;> (try split) <;> rfl
      have e2 : (lookedAt t seg none none).2 = none := by unfold lookedAt; split <;> (try split) <;> rfl
      have := hj.2 rfl none none (by rw [e1]; exact blockOutcome_none data) (by rw [e2]; exact .absent)
      rw [this]; rfl
  refine ⟨h1, ?_⟩
  have := hl.2
  rw [h1] at this
  exact Classical.byContradiction (fun hc => by cases this.2 hc)

theorem usable_none (t seg : Option Str) : DigestsUsable t seg none none := by
  intro data
  have e1 : (lookedAt t seg none none).1 = none := by unfold lookedAt; split <;> (try split) <;> rfl
  have e2 : (lookedAt t seg none none).2 = none := by unfold lookedAt; split <;> (try split) <;> rfl
  rw [e1, e2]
  exact ⟨⟨_, .absent⟩, _, .absent⟩

theorem Good.blockLength {a : ArcRecord} (h : a.Good) : blockLength (some a.length) (len a.extra) = some (len a.block) := by
  unfold Loader.blockLength
  simp only
  rw [(parseInt_iff _ _).2 h.length]
  have : ((a.extra.length + a.block.length : Nat) : Int) - len a.extra = len a.block := by simp only [len]; omega
  simp only [this]
  rw [if_neg (by simp only [len]; omega)]

/-- What the loader makes of the fields. -/
structure Facts (a : ArcRecord) (io : IterOpts) (id : Str) (fl : Fields) : Prop where
  length : fl.length = some a.length
  subLen : fl.subLen = len a.extra
  block : fl.headers.getHeader (lit "WARC-Block-Digest") = none
  payload : fl.headers.getHeader (lit "WARC-Payload-Digest") = none
  uri : HttpType fl.recType → fl.uri ≠ none
  format : fl.format = if io.arc2warc then .warc else .arc
  version : fl.headers.protocol = lit "WARC/1.0" ∧ fl.headers.statusline = []
  recType : fl.recType = some (if a.Describes then (if io.arc2warc then lit "warcinfo" else lit "arc_header") else lit "response")
  contentType : fl.contentType = some (if io.arc2warc ∧ ¬ a.Describes then lit "application/http;msgtype=response" else a.ctype)
  headers : io.arc2warc = false → fl.headers.headers =
    [(lit "uri", a.uri), (lit "ip-address", a.ip), (lit "archive-date", a.date), (lit "content-type", a.ctype), (lit "length", a.length)]
  converted : io.arc2warc = true → ∃ iso, timestampToIsoDate a.date = .ok iso ∧
    WarcRecord.Cleaned (a.converted id iso) fl.headers.headers
  http : HttpRecord fl.recType fl.uri ↔ a.Http io

/-- The headers as they are in the file. -/
theorem facts_arc (a : ArcRecord) {io : IterOpts} (ha : io.arc2warc = false) (id : Str) {hd : StatusAndHeaders}
    (hh : hd.headers = [(lit "uri", a.uri), (lit "ip-address", a.ip), (lit "archive-date", a.date), (lit "content-type", a.ctype), (lit "length", a.length)])
    (ht : hd.totalLen = len a.extra) (hp : hd.protocol = lit "WARC/1.0" ∧ hd.statusline = []) : a.Facts io id (fields .arc hd) := by
  have hget : ∀ n, isAscii n = true → hd.getHeader n = Props.findAscii n [(lit "uri", a.uri), (lit "ip-address", a.ip), (lit "archive-date", a.date), (lit "content-type", a.ctype), (lit "length", a.length)] := by
    intro n hn
    rw [← Props.findAscii_eq hn _ (by simp; decide), ← hh]
    rfl
  have hu : (fields .arc hd).uri = some a.uri := by
    show hd.getHeader (lit "uri") = _
    rw [hget _ (by decide)]; rfl
  have hr : (fields .arc hd).recType = some (if a.Describes then lit "arc_header" else lit "response") := by
    show some (if isFiledesc (((fields .arc hd).uri).getD []) then _ else _) = _
    rw [hu]
    simp only [Option.getD_some, describes_iff, decide_eq_true_eq]
  refine ⟨?_, ht, ?_, ?_, ?_, ?_, hp, ?_, ?_, fun _ => hh, ?_, ?_⟩
  · show hd.getHeader (lit "length") = _
    rw [hget _ (by decide)]; rfl
  · show hd.getHeader (lit "WARC-Block-Digest") = _
    rw [hget _ (by decide)]; rfl
  · show hd.getHeader (lit "WARC-Payload-Digest") = _
    rw [hget _ (by decide)]; rfl
  · intro _; rw [hu]; simp
  · rw [ha]; rfl
  · rw [hr, ha]; rfl
  · show hd.getHeader (lit "content-type") = _
    rw [hget _ (by decide), if_neg (by rw [ha]; simp)]; rfl
  · intro h; rw [ha] at h; cases h
  · rw [hu, hr]
    unfold HttpRecord Http
    rw [ha]
    by_cases hd' : a.Describes
    · rw [if_pos hd']
      constructor
      · rintro ⟨h | h | h, _⟩
        · exact absurd h (by decide)
        · exact absurd h (by decide)
        · exact absurd h (by decide)
      · intro h; exact absurd hd' h.1
    · rw [if_neg hd']
      constructor
      · rintro ⟨-, u, h1, h2⟩
        cases h1
        exact ⟨hd', a.uri, rfl, h2⟩
      · rintro ⟨-, v, h1, h2⟩
        exact ⟨.inl rfl, v, by rw [show v = a.uri from h1], h2⟩

/-- The converted headers. -/
theorem facts_warc (a : ArcRecord) {io : IterOpts} (ha : io.arc2warc = true) (id iso : Str) (hiso : timestampToIsoDate a.date = .ok iso) {hd : StatusAndHeaders}
    (hh : hd.headers = a.converted id iso) (ht : hd.totalLen = len a.extra) (hp : hd.protocol = lit "WARC/1.0" ∧ hd.statusline = []) : a.Facts io id (fields .arc2warc hd) := by
  have hasc : ∀ h ∈ a.converted id iso, isAscii h.1 = true := by rw [← converted_eq]; exact Props.converted_ascii _ _ _ _ _ _
  have hget : ∀ n, isAscii n = true → hd.getHeader n = Props.findAscii n (a.converted id iso) := by
    intro n hn
    rw [← Props.findAscii_eq hn _ hasc, ← hh]
    rfl
  have hother : ∀ n, isAscii n = true → (lit "WARC-Target-URI").map Char.toLower ≠ n.map Char.toLower →
      (fields .arc2warc hd).headers.getHeader n = Props.findAscii n (a.converted id iso) := by
    intro n hn hne
    rw [fields_getHeader _ _ (lower_ne (by decide) hn hne), hget n hn]
  have hr : (fields .arc2warc hd).recType = some (if a.Describes then lit "warcinfo" else lit "response") := by
    show hd.getHeader (lit "WARC-Type") = _
    rw [hget _ (by decide)]
    rfl
  have huri : hd.getHeader (lit "WARC-Target-URI") = if a.Describes then none else some a.uri := by
    rw [hget _ (by decide)]
    unfold converted
    split <;> rfl
  have hu : (fields .arc2warc hd).uri = (ensureTargetUri hd).1 := rfl
  refine ⟨?_, ?_, ?_, ?_, ?_, ?_, ?_, ?_, ?_, ?_, ?_, ?_⟩
  · show (fields .arc2warc hd).headers.getHeader (lit "Content-Length") = _
    rw [hother _ (by decide) (by decide)]
    unfold converted
    split <;> rfl
  · show (ensureTargetUri hd).2.totalLen = _
    rw [← ht]
    unfold ensureTargetUri
    split
    · rfl
    · simp only
      split <;> split <;> rfl
  · rw [hother _ (by decide) (by decide)]
    unfold converted
    split <;> rfl
  · rw [hother _ (by decide) (by decide)]
    unfold converted
    split <;> rfl
  · rw [hr, hu]
    by_cases hd' : a.Describes
    · rw [if_pos hd']
      rintro (h | h | h)
      · exact absurd h (by decide)
      · exact absurd h (by decide)
      · exact absurd h (by decide)
    · intro _
      rw [if_neg hd'] at huri
      obtain ⟨v, _, q⟩ := ensureTargetUri_uri huri
      rw [q]; simp
  · rw [ha]; rfl
  · show (ensureTargetUri hd).2.protocol = _ ∧ (ensureTargetUri hd).2.statusline = _
    rw [(ensureTargetUri_first hd).1, (ensureTargetUri_first hd).2]; exact hp
  · rw [hr, ha]; rfl
  · show (fields .arc2warc hd).headers.getHeader (lit "Content-Type") = _
    rw [hother _ (by decide) (by decide), ha]
    unfold converted
    by_cases hd' : a.Describes <;> simp only [hd', if_true, if_false, not_true, and_false, not_false_eq_true, and_self] <;> rfl
  · intro h; rw [ha] at h; cases h
  · intro _
    refine ⟨iso, hiso, ?_⟩
    rw [← hh]
    exact WarcRecord.cleaned_of hd
  · rw [hu, hr]
    unfold HttpRecord Http
    rw [ha]
    by_cases hd' : a.Describes
    · rw [if_pos hd']
      constructor
      · rintro ⟨h | h | h, _⟩
        · exact absurd h (by decide)
        · exact absurd h (by decide)
        · exact absurd h (by decide)
      · intro h; exact absurd hd' h.1
    · rw [if_neg hd'] at huri ⊢
      obtain ⟨v, q1, q2⟩ := ensureTargetUri_uri huri
      rw [q2]
      constructor
      · rintro ⟨-, u, h1, h2⟩
        cases h1
        exact ⟨hd', v, q1, h2⟩
      · rintro ⟨-, w, h1, h2⟩
        refine ⟨.inl rfl, v, rfl, ?_⟩
        rw [clean_unique q1 h1]; exact h2

/-- A record can be loaded, and shows what it should. -/
theorem Good.item {a : ArcRecord} (h : a.Good) {io : IterOpts} (hv : io.verifyHttp = false) (hc : io.checkDigests ≠ some .raise) (m : Nat) :
    ItemOk io m (· ≠ some .warc) a.item (a.Shows io m) (fun _ c => c.passed = none ∧ c.problems = []) := by
  intro kf k t hk
  obtain ⟨id, hid⟩ : ∃ id, io.ids k = id := ⟨_, rfl⟩
  rw [hid]
  obtain ⟨hs, ls, d1, d2, d3⟩ := h.detect (o := io.load kf id) hk (a.block ++ t)
  obtain ⟨F, H, d2, hF⟩ : ∃ F H, detectLines (io.load kf id) (decodeHeader (takeLine (a.head ++ (a.block ++ t)))) (splitLines (dropLine (a.head ++ (a.block ++ t)))) =
      (.ok (F, H), ls) ∧ a.Facts io id (Loader.fields F H) := by
    refine ⟨_, _, d2, ?_⟩
    have e : (io.load kf id).arc2warc = io.arc2warc := rfl
    rw [e]
    cases ha : io.arc2warc with
    | false =>
      have : arcHeaders (io.load kf id) a.line [a.uri, a.ip, a.date, a.ctype, a.length] = .ok [(lit "uri", a.uri), (lit "ip-address", a.ip), (lit "archive-date", a.date), (lit "content-type", a.ctype), (lit "length", a.length)] := by
        unfold arcHeaders
        rw [if_neg (by rw [e, ha]; simp)]
        rfl
      rw [this] at d1
      cases d1
      exact facts_arc a ha id rfl rfl ⟨rfl, rfl⟩
    | true =>
      obtain ⟨iso, hiso⟩ : ∃ iso, timestampToIsoDate a.date = .ok iso := by
        unfold timestampToIsoDate
        rw [timestampToDatetime_eq]
        exact ⟨_, rfl⟩
      have := Props.convert_eq (io.load kf id) (by rw [e, ha]) a.uri a.ip a.date a.ctype a.length iso hiso
      rw [converted_eq] at this
      rw [show a.line = arcLine a.uri a.ip a.date a.ctype a.length from rfl, this] at d1
      cases d1
      exact facts_warc a ha id iso hiso rfl rfl ⟨rfl, rfl⟩
  refine ⟨F, H, ⟨h.nl, ?_, ⟨ls, d2, d3⟩, ?_, .inr (.inr hF.uri), .inr ⟨hc, ?_⟩, hv⟩, ?_, ?_, ?_⟩
  · intro h0
    have h1 := white_text h0
    have h2 := h.line_take []
    rw [List.append_nil] at h2
    have h3 : takeLine a.item.head = utf8Encode a.line ++ a.eol := h2.1
    rw [h3, h.decode] at h1
    exact a.line_ne h1
  · rw [hF.length, hF.subLen]
    exact h.blockLength
  · rw [hF.block, hF.payload]
    exact usable_none _ _
  · intro ha
    rw [hF.format, ha]
    simp
  · intro rec left hs'
    have hl := hs'.loaded
    have hq : ∀ {P Q : Prop}, P ∨ ¬ a.Http io ∨ Q → P ∨ ¬ HttpRecord (Loader.fields F H).recType (Loader.fields F H).uri ∨ Q := by
      intro P Q q; rw [hF.http]; exact q
    refine ⟨hl.format.trans hF.format, by rw [hl.recHeaders]; exact hF.version, hl.recType.trans hF.recType, hl.contentType.trans hF.contentType, hl.length, ?_, ?_, ?_, ?_, hs'.payload, ?_, hl.checker⟩
    · intro ha; rw [hl.recHeaders]; exact hF.headers ha
    · intro ha
      obtain ⟨iso, i1, i2⟩ := hF.converted ha
      have i0 : iso = datetimeToIsoDate (timestampFields a.date false) := by
        have := i1
        unfold timestampToIsoDate at this
        rw [timestampToDatetime_eq] at this
        cases this; rfl
      subst i0
      refine ⟨k, timestampFields a.date false, ⟨(timestampFields_isDate _ _).1, ?_⟩, ?_⟩
      · intro d q1 q2 q3 q4
        rw [q4, (C52_iso d q1 q2 q3).2, ← q4] at i1
        exact (Except.ok.inj i1).symm
      · rw [hl.recHeaders, hid]; exact i2
    · intro q
      obtain ⟨pre, p1, p2⟩ := hs'.part
      obtain ⟨p3, p4⟩ := hs'.http (hq q)
      refine ⟨?_, p3, ?_⟩
      · rw [p2 (hq q), List.nil_append] at p1; exact p1.symm
      · intro he
        have he' : (io.load kf id).ensureHttpHeaders = false := he
        rw [p4, he']; rfl
    · obtain ⟨pre, p1, _⟩ := hs'.part
      exact ⟨pre, p1⟩
    · intro q1 q2 q3 q4
      exact hs'.head q1 (hF.http.2 q2) q3 q4
  · intro left c hj hl
    rw [hF.block, hF.payload] at hj
    exact no_verdict hj hl

/-! ## Layouts -/

theorem layout {io : IterOpts} (hv : io.verifyHttp = false) (hc : io.checkDigests ≠ some .raise) (m : Nat) : ∀ (as : List ArcRecord) (off : Int), (∀ a ∈ as, a.Good) →
    ArchiveIter.Layout io m (· ≠ some .warc) off [] (as.map item) (placed io m off as)
  | [], _, _ => trivial
  | a :: as, off, hg => ⟨(hg a (by simp)).item hv hc m, rfl, rfl, rfl, ⟨rfl, [], .blank _ (hg a (by simp)).sep, rfl⟩, by
      rw [item_bytes]
      exact layout hv hc m as _ (fun a ha => hg a (by simp [ha]))⟩

omit [PyUni] [Hashlib] in
theorem bytesOf_items (tl : Bytes) (as : List ArcRecord) : ArchiveIter.bytesOf tl (as.map item) = as.flatMap bytes ++ tl := by
  have : (as.map item).flatMap Item.bytes = as.flatMap bytes := by
    rw [List.flatMap_map]
    rw [funext item_bytes]
  rw [ArchiveIter.bytesOf, this]

theorem layoutGz {IsMember : Bytes → Bytes → Prop} {Q : Bytes → Prop} {io : IterOpts} (hv : io.verifyHttp = false) (hc : io.checkDigests ≠ some .raise) (m : Nat) :
    ∀ (ms : List (Bytes × ArcRecord)) (off : Int), (∀ x ∈ ms, IsMember x.1 x.2.bytes ∧ Q x.1) → (∀ x ∈ ms, x.2.Good) →
    ArchiveIter.GzLayout IsMember Q io m (· ≠ some .warc) off (ms.map (fun x => (x.1, x.2.item))) (placedGz io m off ms)
  | [], _, _, _ => trivial
  | (z, a) :: ms, off, hz, hg => ⟨by rw [item_bytes]; exact (hz (z, a) (by simp)).1, (hz (z, a) (by simp)).2,
      ⟨(hg (z, a) (by simp)).sep, rfl, rfl, (hg (z, a) (by simp)).item hv hc m⟩, rfl, rfl, rfl,
      layoutGz hv hc m ms _ (fun x hx => hz x (by simp [hx])) (fun x hx => hg x (by simp [hx]))⟩

omit [PyUni] [Hashlib] in
theorem zipped_items (tl : Bytes) (ms : List (Bytes × ArcRecord)) :
    ArchiveIter.zipped tl (ms.map (fun x => (x.1, x.2.item))) = ms.flatMap (·.1) ++ tl := by
  rw [ArchiveIter.zipped, List.flatMap_map]

omit [Hashlib] in
theorem placed_length {io : IterOpts} {m : Nat} : ∀ (as : List ArcRecord) (off : Int), (placed io m off as).length = as.length
  | [], _ => rfl
  | _ :: as, _ => by simp [placed, placed_length as]

omit [Hashlib] in
theorem placedGz_length {io : IterOpts} {m : Nat} : ∀ (as : List (Bytes × ArcRecord)) (off : Int), (placedGz io m off as).length = as.length
  | [], _ => rfl
  | (_, _) :: as, _ => by simp [placedGz, placedGz_length as]

end ArcRecord
end Warcio
