import Verif.Props.Iterator

/-!
# Properties C67 and C68: lines that are no records

C67: a line behind a block (its length is not what the headers say).  C68: something else than a
record behind the records.  Specification: `Gap`, `WarcRecord.strayed` in
`Verif/Spec/Archive.lean`.
-/

set_option linter.unusedSectionVars false

namespace Warcio.Props

open Warcio ArchiveIter BufReader

section
variable [Zlib] [Hashlib] [PyUni] {IsMember : Bytes → Bytes → Prop}

/-- Records, each with the stray lines behind its block; and options as in `Fit`. -/
structure LooseFit (io : IterOpts) (xs : List (WarcRecord × List Bytes)) : Prop where
  whole : ∀ x ∈ xs, x.1.Whole
  gap : ∀ x ∈ xs, Gap x.1.sep x.2
  quiet : ∀ x ∈ xs, Quiet { checkDigests := io.checkDigests } x.1.headers
  verify : io.verifyHttp = false

theorem layout_strayed {io : IterOpts} (m : Nat) : ∀ (xs : List (WarcRecord × List Bytes)) (off : Int) (ws : List (Int × Bytes)), LooseFit io xs →
    Layout io m (· ≠ some .arc) off ws (xs.map (·.1.item)) (WarcRecord.strayed io m off ws xs)
  | [], _, _, _ => trivial
  | (w, ls) :: xs, off, ws, h => ⟨(h.whole (w, ls) (by simp)).item h.verify (h.quiet (w, ls) (by simp)) m, rfl, rfl, rfl, ⟨rfl, ls, h.gap (w, ls) (by simp), rfl⟩, by
      rw [WarcRecord.item_bytes]
      exact layout_strayed m xs _ _ ⟨fun x hx => h.whole x (by simp [hx]), fun x hx => h.gap x (by simp [hx]), fun x hx => h.quiet x (by simp [hx]), h.verify⟩⟩

/-- What the iteration ends with: the end of the file, or (behind at least one record) something
whose first line is no version of WARC. -/
def EndsWith (io : IterOpts) (xs : List (WarcRecord × List Bytes)) (tl : Bytes) (last : PyErr) : Prop :=
  (tl = [] ∧ last = .stopIteration) ∨
  (xs ≠ [] ∧ io.arc2warc = false ∧ lineText (takeLine tl) ≠ [] ∧ ¬ StartsWarc tl ∧ last = .invalidWarc)

theorem loose_ready (L : LawfulGzip IsMember) {f : FileObj} {io : IterOpts} {xs : List (WarcRecord × List Bytes)} (hw : LooseFit io xs) {tl : Bytes}
    (hf : f.rest = xs.flatMap (·.1.bytes) ++ tl) {last : PyErr} (ht : EndsWith io xs tl last)
    {bs m : Nat} (hr : Reads f bs m) {kf : Option Format} (hk : kf ≠ some .arc) :
    ∃ it, openArchive f io bs kf = .ok it ∧ Ready false (some last) it (WarcRecord.strayed io m f.origin [] xs) := by
  have hlay := layout_strayed m xs f.origin [] hw
  have hb : bytesOf tl (xs.map (·.1.item)) = f.rest := by
    rw [hf, bytesOf, List.flatMap_map]
    simp only [WarcRecord.item_bytes]
  have hs : Starts tl := by
    rcases ht with ⟨h, -⟩ | ⟨-, -, h, -⟩
    · exact .inl h
    · right; intro h0; exact h (white_text h0)
  have hx : xs = [] → f.rest = [] := by
    rintro rfl
    rcases ht with ⟨h, -⟩ | ⟨h, -⟩
    · rw [hf, h]; rfl
    · exact absurd rfl h
  have hm : ¬ [0x1f, 0x8b] <+: f.rest := by
    cases hc : xs with
    | nil => rw [hx hc]; simp
    | cons x ys =>
      subst hc
      have := startsWarc_magic ((hw.whole x (by simp)).starts (x.1.block ++ x.1.sep ++ (ys.flatMap (·.1.bytes) ++ tl)))
      rw [hf]
      simpa [WarcRecord.bytes] using this
  have hl : f.rest ≠ [] → 2 ≤ f.rest.length := by
    intro h
    cases hc : xs with
    | nil => exact absurd (hx hc) h
    | cons x ys =>
      subst hc
      have h1 : 0 < x.1.head.length := List.length_pos_of_mem (hw.whole x (by simp)).nl
      have h2 : 0 < x.1.sep.length := List.length_pos_iff.2 (hw.gap x (by simp)).ne_nil
      rw [hf]
      simp only [List.flatMap_cons, WarcRecord.bytes, List.length_append]
      omega
  rw [← hb] at hl hm
  have hgo : ∀ {V : Source → Bytes → Prop}, ShortRead V → V (Source.of f) f.rest →
      (∀ T N, LineLaw (PlainAt V T N bs) m) → ∃ it, openArchive f io bs kf = .ok it ∧
      Ready false (some last) it (WarcRecord.strayed io m f.origin [] xs) := by
    intro V hV v1 hX
    obtain ⟨it, k1, k2, k3⟩ := open_plain (m := m) (K := (· ≠ some .arc)) L v1 hr.block hr.first hk hlay hb.symm hl hm
    rcases ht with ⟨rfl, rfl⟩ | ⟨h1, h2, h3, h4, rfl⟩
    · refine ⟨it, k1, _, _, (plain_machine L hV hs (hX _ _)).mono (fun _ h => h.1), ?_, _, _, next_start k2, k3⟩
      intro l hl0
      cases hl0
      exact plain_stops L hV
    · refine ⟨it, k1, _, _, (garbage_machine L hV hs (hX _ _)).mono (fun _ h => h.1), ?_, _, _, next_start k2, k3, ?_⟩
      · intro l hl0
        cases hl0
        exact garbage_stops L hV h2 (fun h => h rfl) h3 h4
      · intro h0
        cases xs with
        | nil => exact absurd rfl h1
        | cons x ys => cases h0
  rcases hr.lines with rfl | ⟨hc, hmb⟩
  · exact hgo Source.shortRead (Source.of_view f).1 (fun _ _ => lineLaw_zero)
  · exact hgo Source.fullShort (Source.of_full hc)
      (fun _ _ => lineLaw_mono (plainAt_lineLaw L Source.fullShort Source.fullRead) hmb)

/-- C67: in an uncompressed file a record may be followed by a line that is not blank instead of
blank lines.  All records are yielded as if the line was blank: with the declared blocks, at their
positions, with sizes that do not include the line.  Each such line causes one warning with its
offset and the line, which is written (and counted in `err_count`) when the record is read to its
end, not before. -/
theorem C67_warnings (L : LawfulGzip IsMember) {f : FileObj} {io : IterOpts} {xs : List (WarcRecord × List Bytes)} (hw : LooseFit io xs)
    (hf : f.rest = xs.flatMap (·.1.bytes)) {bs m : Nat} (hr : Reads f bs m) {kf : Option Format} (hk : kf ≠ some .arc) :
    ∃ it, openArchive f io bs kf = .ok it ∧ ∀ plan, PlanOk plan →
      Yields .stopIteration (WarcRecord.strayed io m f.origin [] xs) plan (iterate it plan) := by
  obtain ⟨it, k1, k2⟩ := loose_ready L hw (tl := []) (by rw [hf, List.append_nil]) (.inl ⟨rfl, rfl⟩) hr hk
  exact ⟨it, k1, fun plan hp => k2.yields (.inr rfl) (fun ops h o ho => ⟨hp ops h o ho, fun h => by cases h⟩)⟩

/-- C68: something whose first line is neither blank nor a version of WARC, behind at least one
record.  The records are yielded, then `ArchiveLoadFailed` (invalid WARC record) is raised, and
the iteration is over. -/
theorem C68_garbage (L : LawfulGzip IsMember) {f : FileObj} {io : IterOpts} (ha : io.arc2warc = false) {xs : List (WarcRecord × List Bytes)} (hx : xs ≠ [])
    (hw : LooseFit io xs) {tl : Bytes} (ht : lineText (takeLine tl) ≠ []) (hn : ¬ StartsWarc tl)
    (hf : f.rest = xs.flatMap (·.1.bytes) ++ tl) {bs m : Nat} (hr : Reads f bs m) {kf : Option Format} (hk : kf ≠ some .arc) :
    ∃ it, openArchive f io bs kf = .ok it ∧ ∀ plan, PlanOk plan →
      Yields .invalidWarc (WarcRecord.strayed io m f.origin [] xs) plan (iterate it plan) := by
  obtain ⟨it, k1, k2⟩ := loose_ready L hw hf (.inr ⟨hx, ha, ht, hn, rfl⟩) hr hk
  exact ⟨it, k1, fun plan hp => k2.yields (.inr rfl) (fun ops h o ho => ⟨hp ops h o ho, fun h => by cases h⟩)⟩

theorem unknown_ready (L : LawfulGzip IsMember) {f : FileObj} {io : IterOpts} (hl : lineText (takeLine f.rest) ≠ []) (hn : ¬ StartsWarc f.rest) (h4 : (lineText (takeLine f.rest)).count ' ' < 4)
    (h2 : 2 ≤ f.rest.length) (hm : ¬ [0x1f, 0x8b] <+: f.rest) {bs m : Nat} (hr : Reads f bs m) :
    ∃ it, openArchive f io bs none = .ok it ∧ Ready false (some .unknownFormat) it [] := by
  have hs : Starts f.rest := .inr (fun h0 => hl (white_text h0))
  have hgo : ∀ {V : Source → Bytes → Prop}, ShortRead V → V (Source.of f) f.rest →
      (∀ T N, LineLaw (PlainAt V T N bs) m) → ∃ it, openArchive f io bs none = .ok it ∧ Ready false (some .unknownFormat) it [] := by
    intro V hV v1 hX
    obtain ⟨it, k1, k2, k3⟩ := open_plain (m := m) (io := io) (K := (· = none)) (tl := f.rest) (is := []) (es := []) L v1 hr.block hr.first rfl trivial rfl (fun _ => h2) hm
    refine ⟨it, k1, _, _, (plain_machine L hV hs (hX _ _)).mono (fun _ h => h.1), ?_, _, _, next_start k2, k3⟩
    intro l hl0
    cases hl0
    exact unknown_stops L hV (fun _ h => h) hl hn h4
  rcases hr.lines with rfl | ⟨hc, hmb⟩
  · exact hgo Source.shortRead (Source.of_view f).1 (fun _ _ => lineLaw_zero)
  · exact hgo Source.fullShort (Source.of_full hc)
      (fun _ _ => lineLaw_mono (plainAt_lineLaw L Source.fullShort Source.fullRead) hmb)

/-- C68: a file that is no archive at all: its first line is not blank, no version of WARC, and has fewer than five
fields.  Opening it raises nothing; then `ArchiveLoadFailed` (unknown format) is raised instead of a first record, and the
iteration is over. -/
theorem C68_unknown (L : LawfulGzip IsMember) {f : FileObj} {io : IterOpts} (hl : lineText (takeLine f.rest) ≠ []) (hn : ¬ StartsWarc f.rest) (h4 : (lineText (takeLine f.rest)).count ' ' < 4)
    (h2 : 2 ≤ f.rest.length) (hm : ¬ [0x1f, 0x8b] <+: f.rest) {bs m : Nat} (hr : Reads f bs m) :
    ∃ it, openArchive f io bs none = .ok it ∧ ∀ plan, PlanOk plan → Yields .unknownFormat [] plan (iterate it plan) := by
  obtain ⟨it, k1, k2⟩ := unknown_ready L hl hn h4 h2 hm hr
  exact ⟨it, k1, fun plan hp => k2.yields (.inr rfl) (fun ops h o ho => ⟨hp ops h o ho, fun h => by cases h⟩)⟩

end

/-! ## The hypotheses are met, and the claim that fails -/

/-- A response whose block is longer than it says. -/
def exLong : WarcRecord := { exHttp with sep := utf8Encode (lit "tail\r\n\r\n") }

/-- Two of these, and another record between them. -/
def exStray : List (WarcRecord × List Bytes) :=
  [(exLong, [utf8Encode (lit "tail\r\n")]), (exInfo, []), (exLong, [utf8Encode (lit "tail\r\n")])]

def exStrayFile : FileObj := { content := exStray.flatMap (·.1.bytes) }

theorem exLong_gap : Gap exLong.sep [utf8Encode (lit "tail\r\n")] :=
  .stray (utf8Encode (lit "tail\r\n")) (utf8Encode (lit "\r\n"))
    ⟨⟨utf8Encode (lit "tail\r"), by decide, by decide⟩, 116, by decide, by decide⟩ (.inr ⟨by decide, by decide, by decide⟩)

open Toy in
theorem exStray_fit : LooseFit {} exStray where
  whole := by
    intro x hx
    simp only [exStray, List.mem_cons, List.not_mem_nil, or_false] at hx
    rcases hx with rfl | rfl | rfl
    · exact ⟨exHttp_good.head, exHttp_good.length, exHttp_good.uri⟩
    · exact exInfo_good.toWhole
    · exact ⟨exHttp_good.head, exHttp_good.length, exHttp_good.uri⟩
  gap := by
    intro x hx
    simp only [exStray, List.mem_cons, List.not_mem_nil, or_false] at hx
    rcases hx with rfl | rfl | rfl
    · exact exLong_gap
    · exact .blank _ exInfo_good.sep
    · exact exLong_gap
  quiet := fun _ _ => .inl rfl
  verify := rfl

open Toy in
theorem exJunk_warc : ¬ StartsWarc (utf8Encode (lit "junk\r\nWARC/1.0\r\n")) := by
  rintro ⟨v, hv, h⟩
  have e : PyUni.upper (lineText (takeLine (utf8Encode (lit "junk\r\nWARC/1.0\r\n")))) = lit "JUNK" := by decide +kernel
  rw [e] at h
  simp only [List.mem_cons, List.not_mem_nil, or_false] at hv
  rcases hv with rfl | rfl | rfl | rfl <;> revert h <;> decide

open Toy in
/-- The hypotheses of `C67_warnings` and `C68_garbage`, for lines of up to 17 bytes and for any
short reads that start with at least 2 bytes. -/
example : LooseFit {} exStray ∧ exStray ≠ [] ∧ exStrayFile.rest = exStray.flatMap (·.1.bytes) ∧ Reads exStrayFile 17 17 ∧
    Reads { exStrayFile with caps := [2, 1, 1, 7] } 3 0 ∧
    lineText (takeLine (utf8Encode (lit "junk\r\nWARC/1.0\r\n"))) ≠ [] ∧ ¬ StartsWarc (utf8Encode (lit "junk\r\nWARC/1.0\r\n")) :=
  ⟨exStray_fit, by simp [exStray], rfl, ⟨by decide, by simp [exStrayFile], .inr ⟨rfl, by decide⟩⟩, ⟨by decide, by simp, .inl rfl⟩, by decide +kernel, exJunk_warc⟩

open Toy in
/-- The hypotheses of `C68_unknown`. -/
example : ∃ f : FileObj, lineText (takeLine f.rest) ≠ [] ∧ ¬ StartsWarc f.rest ∧ (lineText (takeLine f.rest)).count ' ' < 4 ∧ 2 ≤ f.rest.length ∧ ¬ [0x1f, 0x8b] <+: f.rest ∧ Reads f 17 17 :=
  ⟨{ content := utf8Encode (lit "junk\r\nWARC/1.0\r\n") }, by decide +kernel, exJunk_warc, by decide +kernel, by decide +kernel, by decide +kernel, by decide, by simp, .inr ⟨rfl, by decide⟩⟩

open Toy in
/-- What the model does. -/
example : (steps exStrayFile {} 16384 [[.errors, .size, .errors], [], [.toEnd, .errors, .offset], []]).map (fun s => s.map (fun x => x.2)) =
    [.ok [.ok (.warned 0 []), .ok (.int 108), .ok (.warned 1 [(108, utf8Encode (lit "tail\r\n"))])], .ok [],
     .ok [.ok .unit, .ok (.warned 2 [(108, utf8Encode (lit "tail\r\n")), (299, utf8Encode (lit "tail\r\n"))]), .ok (.int 191)],
     .error .stopIteration] := by decide +kernel

open Toy in
/-- Two stray lines: the second is taken for a record. -/
example : (steps { content := exLong.bytes ++ utf8Encode (lit "more\r\n\r\n") ++ exInfo.bytes } {} 16384 [[], [], []]).map (fun s => s.map (fun x => x.2)) =
    [.ok [], .error .invalidWarc, .error .stopIteration] := by decide +kernel

open Toy in
/-- C67 fails in a compressed file: the offset in the warning is not that of the line, since it
depends on the size of the blocks read. -/
theorem C67_gzip_offsets :
    ∃ z, IsMember z exLong.bytes ∧ z.length = 235 ∧
      (steps { content := z } {} 16384 [[.toEnd, .errors]]).map (fun s => s.map (fun x => x.2)) = [.ok [.ok .unit, .ok (.warned 1 [(227, utf8Encode (lit "tail\r\n"))])]] ∧
      (steps { content := z } {} 33 [[.toEnd, .errors]]).map (fun s => s.map (fun x => x.2)) = [.ok [.ok .unit, .ok (.warned 1 [(225, utf8Encode (lit "tail\r\n"))])]] :=
  ⟨compress exLong.bytes, rfl, by decide +kernel, by decide +kernel, by decide +kernel⟩

end Warcio.Props
