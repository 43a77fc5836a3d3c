import Verif.Proofs.ArcItems
import Verif.Props.Iterator

/-!
# Property C69: iterating over ARC files

Specification: `Verif/Spec/Arc.lean`.  The records are either given as they are, or (`arc2warc`)
converted to WARC records, see C31.
-/

set_option linter.unusedSectionVars false

namespace Warcio.Props

open Warcio ArchiveIter BufReader

section
variable [Zlib] [Hashlib] [PyUni] {IsMember : Bytes → Bytes → Prop}

/-- ARC records that are well-formed, and options with which iterating raises nothing. -/
structure ArcFit (io : IterOpts) (as : List ArcRecord) : Prop where
  good : ∀ a ∈ as, a.Good
  verify : io.verifyHttp = false
  digests : io.checkDigests ≠ some .raise

theorem arc_ready (L : LawfulGzip IsMember) {f : FileObj} {io : IterOpts} {as : List ArcRecord} (hw : ArcFit io as)
    (hf : f.rest = as.flatMap ArcRecord.bytes) {bs m : Nat} (hr : Reads f bs m) {kf : Option Format} (hk : kf ≠ some .warc) :
    ∃ it, openArchive f io bs kf = .ok it ∧ Ready false (some .stopIteration) it (ArcRecord.placed io m f.origin as) := by
  have hlay := ArcRecord.layout hw.verify hw.digests m as f.origin hw.good
  have hb := ArcRecord.bytesOf_items [] as
  rw [List.append_nil] at hb
  have hl : f.rest ≠ [] → 2 ≤ f.rest.length := by
    intro h
    rw [hf] at h ⊢
    cases as with
    | nil => exact absurd rfl h
    | cons a as =>
      have := (hw.good a (by simp)).two
      simp only [List.flatMap_cons, List.length_append]
      omega
  have hm : ¬ [0x1f, 0x8b] <+: f.rest := by
    rw [hf]
    cases as with
    | nil => simp
    | cons a as =>
      have := (hw.good a (by simp)).no_magic (a.block ++ a.sep ++ as.flatMap ArcRecord.bytes)
      simpa [ArcRecord.bytes] using this
  rw [← hb] at hf
  rw [hf] at hl hm
  have hgo : ∀ {V : Source → Bytes → Prop}, ShortRead V → V (Source.of f) f.rest →
      (∀ T N, LineLaw (PlainAt V T N bs) m) → ∃ it, openArchive f io bs kf = .ok it ∧
      Ready false (some .stopIteration) it (ArcRecord.placed io m f.origin as) := by
    intro V hV v1 hX
    obtain ⟨it, k1, k2, k3⟩ := open_plain (m := m) (K := (· ≠ some .warc)) L v1 hr.block hr.first hk hlay hf hl hm
    refine ⟨it, k1, _, _, (plain_machine L hV (.inl rfl) (hX _ _)).mono (fun _ h => h.1), ?_, _, _, next_start k2, k3⟩
    intro l hl0
    cases hl0
    exact plain_stops L hV
  rcases hr.lines with rfl | ⟨hc, hmb⟩
  · exact hgo Source.shortRead (Source.of_view f).1 (fun _ _ => lineLaw_zero)
  · exact hgo Source.fullShort (Source.of_full hc)
      (fun _ _ => lineLaw_mono (plainAt_lineLaw L Source.fullShort Source.fullRead) hmb)

theorem arc_gz_ready (L : LawfulGzip IsMember) {f : FileObj} {io : IterOpts} {ms : List (Bytes × ArcRecord)} (hw : ArcFit io (ms.map (·.2)))
    (hz : ∀ x ∈ ms, IsMember x.1 x.2.bytes) (hf : f.rest = ms.flatMap (·.1)) (hne : ms ≠ [])
    {bs m : Nat} (hr : ReadsGz f bs m (ms.map (·.1))) {kf : Option Format} (hk : kf ≠ some .warc) :
    ∃ it, openArchive f io bs kf = .ok it ∧ Ready false (some .stopIteration) it (ArcRecord.placedGz io m f.origin ms) := by
  cases ms with
  | nil => exact absurd rfl hne
  | cons x ms =>
    obtain ⟨z, w⟩ := x
    have hg : ∀ x ∈ (z, w) :: ms, x.2.Good := fun x hx => hw.good _ (List.mem_map.2 ⟨x, hx, rfl⟩)
    have hgo : ∀ {V : Source → Bytes → Prop} {Q : Bytes → Prop}, ShortRead V → V (Source.of f) f.rest → (∀ x ∈ (z, w) :: ms, Q x.1) →
        (∀ T rest, LineLaw (GzAt L V T bs Q rest) m) → ∃ it, openArchive f io bs kf = .ok it ∧
        Ready false (some .stopIteration) it (ArcRecord.placedGz io m f.origin ((z, w) :: ms)) := by
      intro V Q hV v1 hQ hX
      have hlay := ArcRecord.layoutGz (IsMember := IsMember) (Q := Q) hw.verify hw.digests m ms (f.origin + len z)
        (fun x hx => ⟨hz x (by simp [hx]), hQ x (by simp [hx])⟩) (fun x hx => hg x (by simp [hx]))
      obtain ⟨it, k1, k2, k3⟩ := open_gz (m := m) (K := (· ≠ some .warc)) (tl := []) (multi := false) (more := []) (i := w.item)
        (e := w.expected io m f.origin (len z)) L v1 hr.block hk
        (by rw [ArcRecord.item_bytes, List.append_nil]; exact hz (z, w) (by simp)) (hQ (z, w) (by simp))
        ⟨(hg (z, w) (by simp)).sep, rfl, rfl, (hg (z, w) (by simp)).item hw.verify hw.digests m⟩ rfl (fun _ => rfl) rfl (.inl ⟨rfl, rfl⟩) hlay
        (by rw [ArcRecord.zipped_items, hf, List.flatMap_cons, List.append_nil])
      refine ⟨it, k1, _, _, gz_machine (multi := false) L hV (hX _), ?_, _, _, next_start k2, k3⟩
      intro l hl0
      cases hl0
      exact gz_stops L hV
    rcases hr.lines with rfl | ⟨hc, hmb⟩
    · exact hgo (Q := fun _ => True) Source.shortRead (Source.of_view f).1 (fun _ _ => trivial) (fun _ _ => lineLaw_zero)
    · exact hgo (Q := Steady bs m) Source.fullShort (Source.of_full hc) (fun x hx => hmb _ (List.mem_map.2 ⟨x, hx, rfl⟩))
        (fun _ rest => gzAt_lineLaw L Source.fullShort Source.fullRead (fun _ h => h) rest)

/-- C69: iterating over an ARC file yields exactly its records, in order, and stops; each as it is
in the file, or with `arc2warc` as the WARC record it is converted to; with the positions of the
ARC records, and whatever the user does with them. -/
theorem C69_records_partial (L : LawfulGzip IsMember) {f : FileObj} {io : IterOpts} {as : List ArcRecord} (hw : ArcFit io as)
    (hf : f.rest = as.flatMap ArcRecord.bytes) {bs m : Nat} (hr : Reads f bs m) {kf : Option Format} (hk : kf ≠ some .warc) :
    ∃ it, openArchive f io bs kf = .ok it ∧ ∀ plan, PlanOk plan →
      Yields .stopIteration (ArcRecord.placed io m f.origin as) plan (iterate it plan) := by
  obtain ⟨it, k1, k2⟩ := arc_ready L hw hf hr hk
  exact ⟨it, k1, fun plan hp => k2.yields (.inr rfl) (fun ops h o ho => ⟨hp ops h o ho, fun h => by cases h⟩)⟩

/-- C69 for a file in which each record is a gzip member of its own. -/
theorem C69_gzip_records_partial (L : LawfulGzip IsMember) {f : FileObj} {io : IterOpts} {ms : List (Bytes × ArcRecord)} (hw : ArcFit io (ms.map (·.2)))
    (hz : ∀ x ∈ ms, IsMember x.1 x.2.bytes) (hne : ms ≠ []) (hf : f.rest = ms.flatMap (·.1)) {bs m : Nat}
    (hr : ReadsGz f bs m (ms.map (·.1))) {kf : Option Format} (hk : kf ≠ some .warc) :
    ∃ it, openArchive f io bs kf = .ok it ∧ ∀ plan, PlanOk plan →
      Yields .stopIteration (ArcRecord.placedGz io m f.origin ms) plan (iterate it plan) := by
  obtain ⟨it, k1, k2⟩ := arc_gz_ready L hw hz hf hne hr hk
  exact ⟨it, k1, fun plan hp => k2.yields (.inr rfl) (fun ops h o ho => ⟨hp ops h o ho, fun h => by cases h⟩)⟩

end

/-! ## The hypotheses are met -/

/-- The record that describes the file. -/
def exArcInfo : ArcRecord where
  uri := lit "filedesc://x.arc"
  ip := lit "0.0.0.0"
  date := lit "20050614070159"
  ctype := lit "text/plain"
  length := lit "41"
  extra := utf8Encode (lit "1 0 Org\nURL IP-address Archive-date\n")
  block := utf8Encode (lit "more\n")

/-- A page. -/
def exArcPage : ArcRecord where
  uri := lit "http://x/a b"
  ip := lit "1.2.3.4"
  date := lit "20050614070200"
  ctype := lit "text/html"
  length := lit "27"
  eol := [13, 10]
  block := utf8Encode (lit "HTTP/1.1 200 OK\r\nA: b\r\n\r\nxy")

/-- Both in a file. -/
def exArcFile : FileObj := { content := [exArcInfo, exArcPage].flatMap ArcRecord.bytes }

open Toy in
theorem exArcInfo_good : exArcInfo.Good where
  fields := ⟨by decide, by decide, by decide, by decide, by decide, by decide⟩
  line := by decide +kernel
  eol := .inl rfl
  warc := by
    have e : PyUni.upper exArcInfo.line = lit "FILEDESC://X.ARC 0.0.0.0 20050614070159 TEXT/PLAIN 41" := by decide +kernel
    rw [e]; decide
  extra := by
    rw [if_pos (by decide)]
    exact ⟨utf8Encode (lit "1 0 Org"), utf8Encode (lit "URL IP-address Archive-date"), by decide, by decide, by decide, by decide⟩
  length := (parseInt_iff _ _).1 (by decide +kernel)
  sep := ⟨by decide, ⟨[], by decide⟩, by decide⟩

open Toy in
theorem exArcPage_good : exArcPage.Good where
  fields := ⟨by decide, by decide, by decide, by decide, by decide, by decide⟩
  line := by decide +kernel
  eol := .inr rfl
  warc := by
    have e : PyUni.upper exArcPage.line = lit "HTTP://X/A B 1.2.3.4 20050614070200 TEXT/HTML 27" := by decide +kernel
    rw [e]; decide
  extra := by rw [if_neg (by decide)]; rfl
  length := (parseInt_iff _ _).1 (by decide +kernel)
  sep := ⟨by decide, ⟨[], by decide⟩, by decide⟩

open Toy in
/-- The hypotheses of `C69_records_partial`, and of `C69_gzip_records_partial`, with and without conversion. -/
example (b : Bool) : ArcFit { arc2warc := b } [exArcInfo, exArcPage] ∧ exArcFile.rest = [exArcInfo, exArcPage].flatMap ArcRecord.bytes ∧ Reads exArcFile 17 17 ∧
    Reads { exArcFile with caps := [2, 1, 1, 7] } 3 0 ∧ IsMember (compress exArcPage.bytes) exArcPage.bytes := by
  refine ⟨⟨?_, rfl, by simp⟩, rfl, ⟨by decide, by simp [exArcFile], .inr ⟨rfl, by decide⟩⟩, ⟨by decide, by simp, .inl rfl⟩, rfl⟩
  intro w hw
  simp only [List.mem_cons, List.not_mem_nil, or_false] at hw
  rcases hw with rfl | rfl
  · exact exArcInfo_good
  · exact exArcPage_good

open Toy in
/-- What the model does. -/
example : (steps exArcFile {} 16384 [[.offset, .size], [.call (.read (some 3)), .size, .offset], []]).map (fun s => s.map (fun x => (x.1.map (·.recType), x.2))) =
    [.ok (some (some (lit "arc_header")), [.ok (.int 0), .ok (.int 95)]),
     .ok (some (some (lit "response")), [.ok (.bytes [120, 121]), .ok (.int 77), .ok (.int 96)]), .error .stopIteration] := by decide +kernel

open Toy in
set_option synthInstance.maxSize 1024 in
/-- The same with conversion. -/
example : (steps exArcFile { arc2warc := true, ids := fun _ => lit "urn:x" } 16384 [[.offset, .size], [.call (.read (some 3)), .size, .offset], []]).map
      (fun s => s.map (fun x => (x.1.map (fun r => (r.recType, r.recHeaders.getHeader (lit "WARC-Date"), r.recHeaders.getHeader (lit "WARC-Target-URI"))), x.2))) =
    [.ok (some (some (lit "warcinfo"), some (lit "2005-06-14T07:01:59Z"), none), [.ok (.int 0), .ok (.int 95)]),
     .ok (some (some (lit "response"), some (lit "2005-06-14T07:02:00Z"), some (lit "http://x/a%20b")), [.ok (.bytes [120, 121]), .ok (.int 77), .ok (.int 96)]),
     .error .stopIteration] := by decide +kernel

/-! ## The claim that fails -/

/-- The record that describes the file, with a letter in its lines that takes two bytes. -/
def exArcAccent : ArcRecord := { exArcInfo with length := lit "16", extra := utf8Encode (lit "1 0 é\nURL\n") }

open Toy in
set_option synthInstance.maxSize 1024 in
/-- C69 fails if the two lines are UTF-8 and not ASCII: their characters are counted, not their bytes
(recordloader.py:301-305), so the block takes the blank line behind it; the line of the next record
is taken for garbage behind this one, and this record is lost, here with an exception. -/
theorem C69_utf8_lines : exArcAccent.extra.length + exArcAccent.block.length = 16 ∧
    (steps { content := [exArcAccent, exArcPage].flatMap ArcRecord.bytes } {} 16384 [[.call (.read none)], [], []]).map (fun s => s.map (fun x => (x.1.map (·.recType), x.2))) =
    [.ok (some (some (lit "arc_header")), [.ok (.bytes (exArcAccent.block ++ [10]))]), .error .invalidArc, .error .stopIteration] := by
  decide +kernel

end Warcio.Props
